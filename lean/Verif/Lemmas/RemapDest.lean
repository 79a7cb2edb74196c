import Verif.Spec.RemapLand
import Mathlib.Data.List.GetD
/-
Lemmas on the tiles of the destination grid of remap_land.
-/
namespace Verif.RemapLand

open Verif.Spec.RemapLand

theorem keeps_eq (t : FileType) (k : Kind) : t.keeps k = inFile t k := by cases t <;> cases k <;> rfl

theorem putAll_ok {K : Type} (size : Nat) (ds : List (DTile K)) (k : Nat) (s : Dst K) (h : k + ds.length ≤ size) :
    putAll size k ds s = .ok { s with
      slots := fun q => if k ≤ q ∧ q < k + ds.length then ds[q - k]? else s.slots q
      nidx := s.nidx + ds.length } := by
  induction ds generalizing k s with
  | nil =>
    rw [putAll]
    congr 1
    cases s
    simp only [List.length_nil, Nat.add_zero, Dst.mk.injEq, true_and, and_true]
    funext q
    rw [if_neg (by omega)]
  | cons d ds ih =>
    rw [List.length_cons] at h
    rw [putAll, if_neg (by omega), ih (k + 1) _ (by omega)]
    congr 1
    simp only [Dst.mk.injEq, true_and, List.length_cons]
    refine ⟨?_, by omega⟩
    funext q
    by_cases h1 : q = k
    · subst h1
      rw [if_neg (by omega), if_pos rfl, if_pos (by omega), Nat.sub_self]
      rfl
    · by_cases h2 : k + 1 ≤ q ∧ q < k + 1 + ds.length
      · rw [if_pos h2, if_pos (by omega), show q - k = (q - (k + 1)) + 1 by omega, List.getElem?_cons_succ]
      · rw [if_neg h2, if_neg h1, if_neg (by omega)]

/-- The state after the tiles `l` of cell `i`, from state `s0` before the cell -/
def CellInv {K : Type} (t : FileType) (ntile i : Nat) (s0 : Dst K) (l : List (DTile K)) (s : Dst K) : Prop :=
  (∀ q, s.count q = if q = i then l.length else s0.count q)
  ∧ (∀ q, s.slots q = if ntile * i ≤ q then (l[q - ntile * i]?).filter (fun d => inFile t d.kind) else s0.slots q)
  ∧ s.nidx = s0.nidx + (l.filter fun d => inFile t d.kind).length

theorem group_step {K : Type} (t : FileType) (size ntile i : Nat) (s0 s : Dst K) (l tiles : List (DTile K)) (kind : Kind)
    (hk : ∀ d ∈ tiles, d.kind = kind) (hs : CellInv t ntile i s0 l s)
    (hsize : ntile * i + (l ++ tiles).length ≤ size) :
    ∃ s', (do
        let s' ← if t.keeps kind then putAll size (ntile * i + s.count i) tiles s else .ok s
        Except.ok (s'.bump i tiles.length)) = (.ok s' : Except Err (Dst K))
      ∧ CellInv t ntile i s0 (l ++ tiles) s' := by
  obtain ⟨h1, h2, h3⟩ := hs
  rw [List.length_append] at hsize
  have hc : s.count i = l.length := by rw [h1, if_pos rfl]
  have hcount : ∀ q, (if q = i then s.count q + tiles.length else s.count q)
      = if q = i then (l ++ tiles).length else s0.count q := by
    intro q
    by_cases hq : q = i
    · rw [if_pos hq, if_pos hq, hq, hc, List.length_append]
    · rw [if_neg hq, if_neg hq, h1, if_neg hq]
  by_cases hkeep : t.keeps kind = true
  · rw [if_pos hkeep, hc, putAll_ok size tiles _ s (by omega)]
    refine ⟨_, rfl, hcount, ?_, ?_⟩
    · intro q
      dsimp only [Dst.bump]
      by_cases hb : ntile * i + l.length ≤ q ∧ q < ntile * i + l.length + tiles.length
      · rw [if_pos hb, if_pos (by omega), List.getElem?_append_right (by omega),
          show q - ntile * i - l.length = q - (ntile * i + l.length) by omega]
        cases hg : tiles[q - (ntile * i + l.length)]? with
        | none => rfl
        | some d =>
          have := hk d (List.mem_of_getElem? hg)
          rw [Option.filter_some, if_pos]
          rw [this, ← keeps_eq]
          exact hkeep
      · rw [if_neg hb, h2]
        by_cases hq : ntile * i ≤ q
        · rw [if_pos hq, if_pos hq]
          rcases Nat.lt_or_ge (q - ntile * i) l.length with h4 | h4
          · rw [List.getElem?_append_left h4]
          · rw [List.getElem?_eq_none h4, List.getElem?_eq_none (by rw [List.length_append]; omega)]
        · rw [if_neg hq, if_neg hq]
    · have : tiles.filter (fun d => inFile t d.kind) = tiles := by
        rw [List.filter_eq_self]
        intro d hd
        rw [hk d hd, ← keeps_eq]
        exact hkeep
      dsimp only [Dst.bump]
      rw [List.filter_append, List.length_append, this, h3]
      omega
  · rw [if_neg hkeep]
    refine ⟨_, rfl, hcount, ?_, ?_⟩
    · intro q
      dsimp only [Dst.bump]
      rw [h2]
      by_cases hq : ntile * i ≤ q
      · rw [if_pos hq, if_pos hq]
        rcases Nat.lt_or_ge (q - ntile * i) l.length with h4 | h4
        · rw [List.getElem?_append_left h4]
        · rw [List.getElem?_eq_none h4, List.getElem?_append_right h4]
          cases hg : tiles[q - ntile * i - l.length]? with
          | none => rfl
          | some d =>
            have := hk d (List.mem_of_getElem? hg)
            rw [Option.filter_some, if_neg]
            · rfl
            · rw [this, ← keeps_eq]
              exact hkeep
      · rw [if_neg hq, if_neg hq]
    · have : tiles.filter (fun d => inFile t d.kind) = [] := by
        rw [List.filter_eq_nil_iff]
        intro d hd
        rw [hk d hd, ← keeps_eq]
        exact hkeep
      dsimp only [Dst.bump]
      rw [List.filter_append, this, List.append_nil, h3]

variable {K : Type} [Field K]

theorem foldl_frac (l : List (Slot K)) (a : K) : l.foldl (fun a x => a + x.frac) a = a + (l.map (·.frac)).sum := by
  induction l generalizing a with
  | nil => simp
  | cons x l ih => rw [List.foldl_cons, ih, List.map_cons, List.sum_cons, add_assoc]

theorem soilPart_ok (t : FileType) (size ntile i : Nat) (c : Cell K) (s0 s : Dst K)
    (hs : CellInv t ntile i s0 [] s) (tiles : List (DTile K)) (ht : tiles = soilTiles c)
    (hsize : ntile * i + tiles.length ≤ size) :
    ∃ s', soilPart t size ntile i c s = .ok s' ∧ CellInv t ntile i s0 tiles s' := by
  unfold soilPart
  unfold soilTiles at ht
  cases hc : c.soil with
  | none =>
    rw [hc] at ht
    subst ht
    exact ⟨s, rfl, hs⟩
  | some cold =>
    rw [hc] at ht
    dsimp only at ht ⊢
    rw [foldl_frac, zero_add, ← ht]
    have hl : c.soilSrc.length = tiles.length := by rw [ht, List.length_map]
    rw [hl]
    have := group_step t size ntile i s0 s [] tiles .soil ?_ hs (by rw [List.nil_append]; exact hsize)
    · rw [List.nil_append] at this
      exact this
    · intro d hd
      rw [ht, List.mem_map] at hd
      obtain ⟨x, -, rfl⟩ := hd
      rfl

theorem onePart_ok (t : FileType) (kind : Kind) (size ntile i : Nat) (cold : Option K) (src : List (Slot K)) (face : Nat)
    (s0 s : Dst K) (l : List (DTile K)) (hs : CellInv t ntile i s0 l s) (tiles : List (DTile K))
    (ht : tiles = oneTiles kind cold src face)
    (h1 : cold.isSome → src.length = 1)
    (hsize : ntile * i + (l ++ tiles).length ≤ size) :
    ∃ s', onePart t kind size ntile i cold src face s = .ok s' ∧ CellInv t ntile i s0 (l ++ tiles) s' := by
  unfold onePart
  unfold oneTiles at ht
  cases cold with
  | none =>
    subst ht
    exact ⟨s, rfl, by rwa [List.append_nil]⟩
  | some cold =>
    obtain ⟨x, rfl⟩ := List.length_eq_one_iff.1 (h1 rfl)
    dsimp only at ht ⊢
    rw [List.map_singleton] at ht
    subst ht
    exact group_step t size ntile i s0 s l [_] kind (by intro d hd; rw [List.mem_singleton.1 hd]) hs hsize

theorem cellStep_ok (t : FileType) (size ntile i : Nat) (c : Cell K) (s : Dst K)
    (h0 : s.count i = 0) (hn : ∀ q, ntile * i ≤ q → s.slots q = none) (h1 : OneEach c)
    (hsize : ntile * i + (cellTiles c).length ≤ size) :
    ∃ s', cellStep t size ntile i c s = .ok s' ∧ CellInv t ntile i s (cellTiles c) s' := by
  have hinv : CellInv t ntile i s [] s := by
    refine ⟨fun q => ?_, fun q => ?_, rfl⟩
    · by_cases hq : q = i
      · rw [if_pos hq, hq, h0]; rfl
      · rw [if_neg hq]
    · by_cases hq : ntile * i ≤ q
      · rw [if_pos hq, hn q hq]; rfl
      · rw [if_neg hq]
  unfold cellTiles at hsize ⊢
  rw [List.length_append, List.length_append] at hsize
  obtain ⟨s1, e1, i1⟩ := soilPart_ok t size ntile i c s s hinv _ rfl (by omega)
  obtain ⟨s2, e2, i2⟩ := onePart_ok t .glac size ntile i c.glac c.glacSrc c.glacFace s s1 _ i1 _ rfl h1.1
    (by rw [List.length_append]; omega)
  obtain ⟨s3, e3, i3⟩ := onePart_ok t .lake size ntile i c.lake c.lakeSrc c.lakeFace s s2 _ i2 _ rfl h1.2
    (by rw [List.length_append, List.length_append]; omega)
  refine ⟨s3, ?_, i3⟩
  unfold cellStep
  rw [e1]
  show (onePart t .glac size ntile i c.glac c.glacSrc c.glacFace s1 >>= _) = _
  rw [e2]
  exact e3

theorem destLoop_ok (t : FileType) (ntile nxc : Nat) (cells : Nat → Cell K)
    (h1 : ∀ i < nxc, OneEach (cells i)) (hcap : ∀ i < nxc, (cellTiles (cells i)).length ≤ ntile) (m : Nat) (hm : m ≤ nxc) :
    ∃ s, destLoop t (ntile * nxc) ntile cells m = .ok s
      ∧ (∀ i, s.count i = if i < m then (cellTiles (cells i)).length else 0)
      ∧ (∀ i < m, ∀ n < ntile, s.slots (ntile * i + n)
          = ((cellTiles (cells i))[n]?).filter (fun d => inFile t d.kind))
      ∧ (∀ q, ntile * m ≤ q → s.slots q = none)
      ∧ s.nidx = ((List.range m).map fun i => ((cellTiles (cells i)).filter fun d => inFile t d.kind).length).sum := by
  induction m with
  | zero =>
    exact ⟨_, rfl, fun i => by rw [if_neg (by omega)]; rfl, fun i hi => absurd hi (by omega), fun _ _ => rfl, rfl⟩
  | succ m ih =>
    obtain ⟨s, e, a1, a2, a3, a4⟩ := ih (by omega)
    have hroom : ntile * m + ntile ≤ ntile * nxc := by rw [← Nat.mul_succ]; exact Nat.mul_le_mul_left _ hm
    have hcap' := hcap m (by omega)
    obtain ⟨s', e', b1, b2, b3⟩ := cellStep_ok t (ntile * nxc) ntile m (cells m) s
      (by rw [a1, if_neg (by omega)]) a3 (h1 m (by omega)) (by omega)
    refine ⟨s', ?_, ?_, ?_, ?_, ?_⟩
    · rw [destLoop, e]; exact e'
    · intro i
      rw [b1, a1]
      by_cases hi : i = m
      · rw [if_pos hi, if_pos (by omega), hi]
      · rw [if_neg hi]
        by_cases hi2 : i < m
        · rw [if_pos hi2, if_pos (by omega)]
        · rw [if_neg hi2, if_neg (by omega)]
    · intro i hi n hn
      rw [b2]
      by_cases hi' : i = m
      · subst hi'
        rw [if_pos (by omega), Nat.add_sub_cancel_left]
      · have : ntile * i + ntile ≤ ntile * m := by rw [← Nat.mul_succ]; exact Nat.mul_le_mul_left _ (by omega)
        rw [if_neg (by omega), a2 i (by omega) n hn]
    · intro q hq
      rw [Nat.mul_succ] at hq
      rw [b2, if_pos (by omega), List.getElem?_eq_none (by omega)]
      rfl
    · rw [b3, a4, List.range_succ, List.map_append, List.sum_append]
      simp

theorem onePart_error (t : FileType) (kind : Kind) (size ntile i : Nat) (cold : Option K) (src : List (Slot K)) (face : Nat)
    (s : Dst K) (h : cold.isSome) (h1 : src.length ≠ 1) : ∃ e, onePart t kind size ntile i cold src face s = .error e := by
  unfold onePart
  cases cold with
  | none => cases h
  | some c =>
    match src with
    | [] => exact ⟨_, rfl⟩
    | [x] => exact absurd rfl h1
    | x :: y :: l => exact ⟨_, rfl⟩

theorem cellStep_error (t : FileType) (size ntile i : Nat) (c : Cell K) (s : Dst K) (h1 : ¬ OneEach c) :
    ∃ e, cellStep t size ntile i c s = .error e := by
  unfold cellStep
  cases e1 : soilPart t size ntile i c s with
  | error e => exact ⟨e, rfl⟩
  | ok s1 =>
    show ∃ e, (onePart t .glac size ntile i c.glac c.glacSrc c.glacFace s1 >>= _) = _
    cases e2 : onePart t .glac size ntile i c.glac c.glacSrc c.glacFace s1 with
    | error e => exact ⟨e, rfl⟩
    | ok s2 =>
      show ∃ e, onePart t .lake size ntile i c.lake c.lakeSrc c.lakeFace s2 = _
      by_cases hg : c.glac.isSome ∧ c.glacSrc.length ≠ 1
      · obtain ⟨e, he⟩ := onePart_error t .glac size ntile i c.glac c.glacSrc c.glacFace s1 hg.1 hg.2
        rw [e2] at he
        cases he
      · by_cases hl : c.lake.isSome ∧ c.lakeSrc.length ≠ 1
        · exact onePart_error t .lake size ntile i c.lake c.lakeSrc c.lakeFace s2 hl.1 hl.2
        · exact absurd ⟨fun h => by_contra fun h' => hg ⟨h, h'⟩, fun h => by_contra fun h' => hl ⟨h, h'⟩⟩ h1

theorem destLoop_error (t : FileType) (size ntile : Nat) (cells : Nat → Cell K) (i : Nat) (h1 : ¬ OneEach (cells i))
    (m : Nat) (hi : i < m) : ∃ e, destLoop t size ntile cells m = .error e := by
  induction m with
  | zero => omega
  | succ m ih =>
    rw [destLoop]
    cases e : destLoop t size ntile cells m with
    | error e => exact ⟨_, rfl⟩
    | ok s =>
      rcases Nat.lt_or_ge i m with h | h
      · obtain ⟨e', he⟩ := ih h
        rw [e] at he
        cases he
      · have : i = m := by omega
        subst this
        exact cellStep_error t size ntile i (cells i) s h1

end Verif.RemapLand
