import Verif.Spec.CombineNcc
import Verif.Props.MergeRank
import Verif.Lemmas.NcArray
import Mathlib.Algebra.BigOperators.Group.List.Lemmas
/-
Helper lemmas for combine-ncc.
-/
namespace Verif.CombineNcc
open MergeRank Spec

variable {α β : Type}

theorem placesFrom_map (g : Place → β) (h : CFile α → Nat → β) : ∀ (fs : List (CFile α)) (n : Nat),
    (∀ (i : Nat) f k, fs[i]? = some f → k < f.index.length → g (n + i, k) = h f k) →
    (placesFrom n fs).map g = fs.flatMap fun f => (List.range f.index.length).map (h f) := by
  intro fs
  induction fs with
  | nil => intro n _; rfl
  | cons f fs ih =>
    intro n hg
    rw [placesFrom, List.map_append, List.flatMap_cons, ih (n + 1)]
    · congr 1
      rw [List.map_map]
      apply List.map_congr_left
      intro k hk
      exact hg 0 f k rfl (List.mem_range.1 hk)
    · intro i f' k hf hk
      have := hg (i + 1) f' k (by simpa using hf) hk
      rw [show n + 1 + i = n + (i + 1) by omega]
      exact this

theorem range_map_getD (l : List Int) : (List.range l.length).map (fun k => l.getD k 0) = l := by
  apply List.ext_getElem
  · simp
  · intro i h1 h2
    simp [List.getD_eq_getElem?_getD, List.getElem?_eq_getElem h2]

theorem allIndex_eq (files : List (CFile α)) :
    allIndex files = (places files).map (idxAt files) := by
  unfold places
  rw [placesFrom_map (idxAt files) (fun f k => f.index.getD k 0) files 0]
  · unfold allIndex
    congr 1
    funext f
    exact (range_map_getD _).symm
  · intro i f k hf hk
    rw [Nat.zero_add]
    simp [idxAt, hf]

theorem readSlice_eq (files : List (CFile α)) (v c : Nat) (start : List Nat) :
    (places files).map (valAt files v c start) = (readSlice files v c start).map some := by
  unfold places
  rw [placesFrom_map (valAt files v c start) (fun f k => some (f.val v (start.set c k))) files 0]
  · unfold readSlice
    rw [List.map_flatMap]
    congr 1
    funext f
    rw [List.map_map]
    rfl
  · intro i f k hf hk
    rw [Nat.zero_add]
    simp [valAt, hf]

theorem outLen_eq (files : List (CFile α)) :
    outLen files = ((places files).filter fun p => decide (0 ≤ idxAt files p)).length := by
  have h : outLen files = (allIndex files).countP (fun v => decide (0 ≤ v)) := by
    unfold outLen allIndex
    rw [List.countP_flatMap]
    rfl
  rw [h, allIndex_eq, List.countP_map, List.countP_eq_length_filter]
  rfl

theorem placesFrom_pairwise : ∀ (fs : List (CFile α)) (n : Nat),
    (placesFrom n fs).Pairwise (fun p q => p.1 < q.1 ∨ (p.1 = q.1 ∧ p.2 < q.2)) ∧
      ∀ p ∈ placesFrom n fs, n ≤ p.1 := by
  intro fs
  induction fs with
  | nil => intro n; simp [placesFrom]
  | cons f fs ih =>
    intro n
    obtain ⟨h1, h2⟩ := ih (n + 1)
    refine ⟨?_, ?_⟩
    · rw [placesFrom, List.pairwise_append]
      refine ⟨?_, h1, ?_⟩
      · rw [List.pairwise_map]
        exact List.pairwise_lt_range.imp (by intro a b h; exact Or.inr ⟨rfl, h⟩)
      · intro p hp q hq
        obtain ⟨k, _, rfl⟩ := List.mem_map.1 hp
        have := h2 q hq
        left; simp; omega
    · intro p hp
      rw [placesFrom] at hp
      rcases List.mem_append.1 hp with hp | hp
      · obtain ⟨k, _, rfl⟩ := List.mem_map.1 hp
        exact Nat.le_refl _
      · have := h2 p hp; omega

/-! ### The rank array -/

theorem takeWhile_drop {γ : Type} (l : List γ) (p : γ → Bool) :
    l.drop (l.takeWhile p).length = l.dropWhile p := by
  induction l with
  | nil => rfl
  | cons a l ih =>
    by_cases h : p a = true
    · rw [List.takeWhile_cons_of_pos h, List.dropWhile_cons_of_pos h]; simpa using ih
    · rw [List.takeWhile_cons_of_neg h, List.dropWhile_cons_of_neg h]; rfl

/-- In an ascending list the elements that are not negative are at the end. -/
theorem dropWhile_eq_filter (x : Nat → Int) : ∀ l : List Nat, l.Pairwise (fun p q => x p ≤ x q) →
    l.dropWhile (fun p => decide (x p < 0)) = l.filter (fun p => decide (0 ≤ x p)) := by
  intro l
  induction l with
  | nil => intro _; rfl
  | cons a l ih =>
    intro h
    obtain ⟨h1, h2⟩ := List.pairwise_cons.1 h
    by_cases ha : x a < 0
    · rw [List.dropWhile_cons_of_pos (by simpa using ha), List.filter_cons_of_neg (by simp; omega)]
      exact ih h2
    · rw [List.dropWhile_cons_of_neg (by simpa using ha)]
      symm
      rw [List.filter_eq_self]
      intro b hb
      rcases List.mem_cons.1 hb with rfl | hb
      · simp; omega
      · have := h1 b hb
        simp; omega

/-- Positions (from 1) of the output points in the concatenation of the files. -/
def outPos (buff : List Int) : List Nat :=
  (rankAscending (at1 buff) buff.length).filter fun p => decide (0 ≤ at1 buff p)

theorem reorder_eq (buff : List Int) : ∃ k, reorder buff =
    (outPos buff).map Int.ofNat ++ List.replicate k (-1) := by
  refine ⟨((rankAscending (at1 buff) buff.length).takeWhile
    fun p => decide (at1 buff p < 0)).length, ?_⟩
  unfold reorder
  simp only
  rw [takeWhile_drop, dropWhile_eq_filter]
  · rfl
  · exact (C20_rank (at1 buff) buff.length).2.imp (by intros; omega)

theorem outPos_mem {buff : List Int} {p : Nat} (h : p ∈ outPos buff) :
    1 ≤ p ∧ p ≤ buff.length := by
  have h1 := (List.mem_filter.1 h).1
  rw [(C20_rank (at1 buff) buff.length).1.mem_iff] at h1
  obtain ⟨i, hi, rfl⟩ := List.mem_map.1 h1
  have := List.mem_range.1 hi
  omega

/-- The output points, from the positions. -/
def outPts (files : List (CFile α)) : List Place :=
  (outPos (allIndex files)).map fun p => (places files).getD (p - 1) (0, 0)

theorem at1_places (files : List (CFile α)) {p : Nat} (h1 : 1 ≤ p)
    (h2 : p ≤ (places files).length) :
    at1 (allIndex files) p = idxAt files ((places files).getD (p - 1) (0, 0)) := by
  unfold at1
  rw [allIndex_eq]
  have : p - 1 < (places files).length := by omega
  simp [List.getD_eq_getElem?_getD, List.getElem?_eq_getElem this]

theorem outPts_isOutput (files : List (CFile α)) : IsOutput files (outPts files) := by
  have hlen : (allIndex files).length = (places files).length := by rw [allIndex_eq]; simp
  obtain ⟨hperm, hpw⟩ := C20_rank (at1 (allIndex files)) (allIndex files).length
  constructor
  · -- filter, then map
    have h1 : outPts files =
        ((rankAscending (at1 (allIndex files)) (allIndex files).length).map
          fun p => (places files).getD (p - 1) (0, 0)).filter fun p => decide (0 ≤ idxAt files p) := by
      unfold outPts outPos
      rw [List.filter_map]
      congr 1
      apply List.filter_congr
      intro p hp
      rw [hperm.mem_iff] at hp
      obtain ⟨i, hi, rfl⟩ := List.mem_map.1 hp
      have := List.mem_range.1 hi
      rw [at1_places files (by omega) (by omega)]
      rfl
    rw [h1]
    apply List.Perm.filter
    refine (hperm.map _).trans (List.Perm.of_eq ?_)
    rw [List.map_map]
    apply List.ext_getElem
    · simp [hlen]
    · intro i h1 h2
      simp [List.getD_eq_getElem?_getD, List.getElem?_eq_getElem h2]
  · unfold outPts outPos
    rw [List.pairwise_map]
    have hm : ∀ p ∈ (rankAscending (at1 (allIndex files)) (allIndex files).length).filter
        (fun p => decide (0 ≤ at1 (allIndex files) p)), 1 ≤ p ∧ p ≤ (allIndex files).length :=
      fun p hp => outPos_mem hp
    refine List.Pairwise.imp_of_mem ?_ (hpw.filter _)
    intro p q hp hq h
    obtain ⟨p1, p2⟩ := hm p hp
    obtain ⟨q1, q2⟩ := hm q hq
    unfold Before
    rw [← at1_places files p1 (by omega), ← at1_places files q1 (by omega)]
    rcases h with h | ⟨h, hlt⟩
    · exact Or.inl h
    · right
      refine ⟨h, ?_⟩
      have hpl := (placesFrom_pairwise files 0).1
      rw [List.pairwise_iff_getElem] at hpl
      have hp' : p - 1 < (places files).length := by omega
      have hq' : q - 1 < (places files).length := by omega
      have := hpl (p - 1) (q - 1) hp' hq' (by omega)
      simp only [List.getD_eq_getElem?_getD, List.getElem?_eq_getElem hp',
        List.getElem?_eq_getElem hq', Option.getD_some]
      exact this

theorem outPts_length (files : List (CFile α)) : (outPts files).length = outLen files := by
  rw [outLen_eq]
  exact (outPts_isOutput files).1.length_eq

theorem mapM_pick (buffer : List α) : ∀ ps : List Nat, (∀ p ∈ ps, 1 ≤ p ∧ p ≤ buffer.length) →
    ∃ o, (ps.map Int.ofNat).mapM (pick buffer) = some o ∧
      o.map some = ps.map fun p => buffer[p - 1]? := by
  intro ps
  induction ps with
  | nil => intro _; exact ⟨[], rfl, rfl⟩
  | cons p ps ih =>
    intro h
    obtain ⟨h1, h2⟩ := h p (by simp)
    obtain ⟨o, ho1, ho2⟩ := ih (fun q hq => h q (by simp [hq]))
    have hp : pick buffer (Int.ofNat p) = some buffer[p - 1] := by
      unfold pick
      rw [if_pos (by simp; omega)]
      have e : (Int.ofNat p - 1).toNat = p - 1 := by
        rw [Int.ofNat_eq_natCast]; omega
      rw [e, List.getElem?_eq_getElem]
    refine ⟨buffer[p - 1] :: o, ?_, ?_⟩
    · simp only [List.map_cons, List.mapM_cons, hp, ho1]; rfl
    · simp only [List.map_cons, ho2]
      rw [List.getElem?_eq_getElem (by omega)]

/-- A reordered slice: the values at the output points. -/
theorem obuffer_spec (files : List (CFile α)) (v c : Nat) (start : List Nat) :
    ∃ o, ((reorder (allIndex files)).take (outLen files)).mapM (pick (readSlice files v c start)) = some o ∧
      o.map some = (outPts files).map (valAt files v c start) := by
  obtain ⟨k, hk⟩ := reorder_eq (allIndex files)
  have hl : outLen files = ((outPos (allIndex files)).map Int.ofNat).length := by
    rw [← outPts_length]; simp [outPts]
  rw [hk, hl, List.take_left]
  have hr := readSlice_eq files v c start
  have hrl : (readSlice files v c start).length = (places files).length := by
    have := congrArg List.length hr
    simpa using this.symm
  have hlen : (allIndex files).length = (places files).length := by rw [allIndex_eq]; simp
  obtain ⟨o, h1, h2⟩ := mapM_pick (readSlice files v c start) (outPos (allIndex files)) (by
    intro p hp
    have := outPos_mem hp
    omega)
  refine ⟨o, h1, ?_⟩
  rw [h2]
  unfold outPts
  rw [List.map_map]
  apply List.map_congr_left
  intro p hp
  have hp' := outPos_mem hp
  have hlt : p - 1 < (places files).length := by omega
  simp only [Function.comp, List.getD_eq_getElem?_getD, List.getElem?_eq_getElem hlt,
    Option.getD_some]
  have := congrArg (fun l => l[p - 1]?) hr
  simp only [List.getElem?_map, List.getElem?_eq_getElem hlt, Option.map_some] at this
  rw [List.getElem?_eq_getElem (by omega)] at this ⊢
  simpa using this.symm

/-! ### The slices -/

theorem startRest_surj : ∀ (lens idx : List Nat), InBox lens idx → ∃ ii, ii < lens.prod ∧
    startOf.startRest lens ii = idx := by
  intro lens
  induction lens with
  | nil =>
    intro idx h
    cases h
    exact ⟨0, by simp, rfl⟩
  | cons l lens ih =>
    intro idx h
    cases h with
    | @cons i _ is _ hi his =>
      obtain ⟨ii, h1, h2⟩ := ih is his
      refine ⟨ii * l + i, ?_, ?_⟩
      · rw [List.prod_cons]
        calc ii * l + i < ii * l + l := by omega
          _ = (ii + 1) * l := by rw [Nat.add_mul, Nat.one_mul]
          _ ≤ lens.prod * l := Nat.mul_le_mul_right _ h1
          _ = l * lens.prod := Nat.mul_comm _ _
      · rw [startOf.startRest]
        have hm : (ii * l + i) % l = i := by
          rw [Nat.add_comm, Nat.add_mul_mod_self_right, Nat.mod_eq_of_lt hi]
        have hd : (ii * l + i) / l = ii := by
          rw [Nat.add_comm, Nat.add_mul_div_right _ _ (by omega), Nat.div_eq_of_lt hi, Nat.zero_add]
        rw [hm, hd, h2]

/-- Every combination of the other indices is the start of a slice. -/
theorem startOf_surj (m : Nat) : ∀ (lens : List Nat) (c : Nat) (idx : List Nat), c < lens.length →
    0 < lens.getD c 0 → InBox (lens.set c m) idx →
    ∃ ii, ii < lens.prod / lens.getD c 0 ∧ startOf lens c ii = idx.set c 0 := by
  intro lens
  induction lens with
  | nil => intro c idx h; simp at h
  | cons l lens ih =>
    intro c idx hc hpos hbox
    cases c with
    | zero =>
      simp only [List.set_cons_zero] at hbox
      cases hbox with
      | @cons i _ is _ hi his =>
        obtain ⟨ii, h1, h2⟩ := startRest_surj lens is his
        simp only [List.getD_cons_zero] at hpos ⊢
        refine ⟨ii, ?_, ?_⟩
        · rw [List.prod_cons, Nat.mul_div_cancel_left _ hpos]; exact h1
        · rw [startOf, h2]; rfl
    | succ c =>
      simp only [List.set_cons_succ] at hbox
      cases hbox with
      | @cons i _ is _ hi his =>
        simp only [List.getD_cons_succ] at hpos ⊢
        obtain ⟨ii, h1, h2⟩ := ih c is (by simpa using hc) hpos his
        refine ⟨ii * l + i, ?_, ?_⟩
        · have hdvd : lens.getD c 0 ∣ lens.prod := by
            apply List.dvd_prod
            have hc' : c < lens.length := by simpa using hc
            rw [List.getD_eq_getElem?_getD, List.getElem?_eq_getElem hc']
            exact List.getElem_mem hc'
          rw [List.prod_cons, Nat.mul_div_assoc _ hdvd]
          calc ii * l + i < ii * l + l := by omega
            _ = (ii + 1) * l := by rw [Nat.add_mul, Nat.one_mul]
            _ ≤ (lens.prod / lens.getD c 0) * l := Nat.mul_le_mul_right _ h1
            _ = l * (lens.prod / lens.getD c 0) := Nat.mul_comm _ _
        · rw [startOf]
          have hm : (ii * l + i) % l = i := by
            rw [Nat.add_comm, Nat.add_mul_mod_self_right, Nat.mod_eq_of_lt hi]
          have hd : (ii * l + i) / l = ii := by
            rw [Nat.add_comm, Nat.add_mul_div_right _ _ (by omega), Nat.div_eq_of_lt hi, Nat.zero_add]
          rw [hm, hd, h2]
          rfl

theorem startRest_length : ∀ (lens : List Nat) (ii : Nat),
    (startOf.startRest lens ii).length = lens.length := by
  intro lens
  induction lens with
  | nil => intro _; rfl
  | cons l lens ih => intro ii; simp [startOf.startRest, ih]

theorem startOf_length : ∀ (lens : List Nat) (c ii : Nat), (startOf lens c ii).length = lens.length := by
  intro lens
  induction lens with
  | nil => intro c ii; rfl
  | cons l lens ih =>
    intro c ii
    cases c with
    | zero => simp [startOf, startRest_length]
    | succ c => simp [startOf, ih]

/-- After any list of slices that contains the slice of `idx`, the value at `idx` is that of its
output point. -/
theorem slices_spec (files : List (CFile α)) (v : Nat) (lens : List Nat) (c : Nat) (idx : List Nat)
    (p : Place) (hp : (outPts files)[idx.getD c 0]? = some p) (hc : c < idx.length) :
    ∀ (ss : List Nat) (out : List Nat → α),
    ∃ out', ss.foldlM (doSlice files (reorder (allIndex files)) (outLen files) v lens c) out = some out' ∧
      (((∃ ii ∈ ss, startOf lens c ii = idx.set c 0) ∨ valAt files v c idx p = some (out idx)) →
        valAt files v c idx p = some (out' idx)) := by
  intro ss
  induction ss with
  | nil =>
    intro out
    refine ⟨out, rfl, ?_⟩
    rintro (⟨ii, h, _⟩ | h)
    · cases h
    · exact h
  | cons s ss ih =>
    intro out
    obtain ⟨o, ho1, ho2⟩ := obuffer_spec files v c (startOf lens c s)
    have hstep : doSlice files (reorder (allIndex files)) (outLen files) v lens c out s =
        some (writeSlice out c (startOf lens c s) o) := by
      unfold doSlice
      simp only [ho1]
      rfl
    obtain ⟨out', h1, h2⟩ := ih (writeSlice out c (startOf lens c s) o)
    refine ⟨out', ?_, ?_⟩
    · rw [List.foldlM_cons, hstep]
      exact h1
    · intro h
      apply h2
      -- the value is right after this slice, unless a later one sets it
      have hw : startOf lens c s = idx.set c 0 →
          valAt files v c idx p = some (writeSlice out c (startOf lens c s) o idx) := by
        intro hs
        have hv := congrArg (fun l => l[idx.getD c 0]?) ho2
        simp only [List.getElem?_map, hp, Option.map_some] at hv
        have : valAt files v c (startOf lens c s) p = valAt files v c idx p := by
          unfold valAt
          rw [hs]
          simp
        rw [this] at hv
        unfold writeSlice
        rw [if_pos ⟨hs.symm, by rw [hs]; simp⟩]
        cases ho : o[idx.getD c 0]? with
        | none => rw [ho] at hv; simp at hv
        | some y =>
          rw [ho] at hv
          simp only [Option.map_some, Option.some.injEq] at hv
          simp [← hv]
      by_cases hs : startOf lens c s = idx.set c 0
      · exact Or.inr (hw hs)
      · rcases h with ⟨ii, hii, hi⟩ | h
        · rcases List.mem_cons.1 hii with rfl | hii
          · exact absurd hi hs
          · exact Or.inl ⟨ii, hii, hi⟩
        · right
          unfold writeSlice
          rw [if_neg (by intro hh; exact hs hh.1.symm)]
          exact h

end Verif.CombineNcc
