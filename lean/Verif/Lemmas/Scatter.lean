import Verif.Model.Scatter
import Verif.Lemmas.NcArray
import Verif.Lemmas.OrdPart
import Verif.Props.Decomposition
import Verif.Spec.Tile
/-
Helper lemmas for mppncscatter (C08).
-/
namespace Verif

theorem copyRows_aux {α : Type} (inp : Nat → α) (n : Nat) :
    ∀ (srcs : List Nat) (off : Nat) (out : Nat → α) (x : Nat),
      (srcs.foldl (fun (st : Nat × (Nat → α)) s => (st.1 + n, memcpy st.2 st.1 inp s n))
        (off, out)).2 x =
      if off ≤ x ∧ x < off + srcs.length * n then
        inp ((srcs.getD ((x - off) / n) 0) + (x - off) % n) else out x := by
  intro srcs
  induction srcs with
  | nil =>
    intro off out x
    rw [if_neg (by simp)]; rfl
  | cons s srcs ih =>
    intro off out x
    simp only [List.foldl_cons]
    rw [ih]
    simp only [List.length_cons, Nat.add_mul, Nat.one_mul]
    by_cases h1 : off + n ≤ x ∧ x < off + n + srcs.length * n
    · rw [if_pos h1, if_pos (by omega)]
      have hn : 0 < n := by
        rcases Nat.eq_zero_or_pos n with h0 | h0
        · subst h0; simp at h1; omega
        · exact h0
      have e : x - off = (x - (off + n)) + n := by omega
      rw [e, Nat.add_div_right _ hn, Nat.add_mod_right, List.getD_cons_succ]
    · rw [if_neg h1]
      unfold memcpy
      by_cases h2 : off ≤ x ∧ x < off + n
      · rw [if_pos h2, if_pos (by omega)]
        rw [Nat.div_eq_of_lt (by omega), Nat.mod_eq_of_lt (by omega), List.getD_cons_zero]
      · rw [if_neg h2, if_neg (by omega)]

theorem copyRows_get {α : Type} (inp : Nat → α) (n : Nat) (srcs : List Nat) (out : Nat → α)
    (r c src : Nat) (hc : c < n) (hs : srcs[r]? = some src) :
    copyRows inp n srcs out (r * n + c) = inp (src + c) := by
  unfold copyRows
  rw [copyRows_aux]
  have hr : r < srcs.length := by
    by_contra h; rw [List.getElem?_eq_none (by omega)] at hs; cases hs
  have hlt : r * n + c < srcs.length * n := by
    calc r * n + c < r * n + n := by omega
      _ = (r + 1) * n := by ring
      _ ≤ _ := Nat.mul_le_mul_right _ hr
  rw [if_pos (by omega)]
  have e1 : (r * n + c - 0) / n = r := by
    rw [Nat.sub_zero, Nat.mul_comm, Nat.mul_add_div (by omega), Nat.div_eq_of_lt hc, Nat.add_zero]
  have e2 : (r * n + c - 0) % n = c := by
    rw [Nat.sub_zero, Nat.mul_comm, Nat.mul_add_mod, Nat.mod_eq_of_lt hc]
  rw [e1, e2, List.getD_eq_getElem?_getD, hs]; rfl

/-- `hyperslabcopy` copies the requested block for 0 to 3 dimensions. -/
theorem hyperslabcopy_get {α : Type} (dims start count idx : List Nat) (inp out : Nat → α)
    (h3 : dims.length ≤ 3) (hs : start.length = dims.length) (hi : InBox count idx)
    (hc : count.length = dims.length) :
    hyperslabcopy dims start count inp out (flat count idx) = inp (flat dims (addIdx start idx)) := by
  match dims, start, count, h3, hs, hc with
  | [], [], [], _, _, _ =>
    rw [InBox.nil_iff] at hi; subst hi
    simp [hyperslabcopy, memcpy, flat, addIdx]
  | [d0], [s0], [c0], _, _, _ =>
    obtain ⟨i, is, rfl, h1, h2⟩ := InBox.cons_iff.1 hi
    rw [InBox.nil_iff] at h2; subst h2
    simp [hyperslabcopy, memcpy, flat, addIdx, h1]
  | [d0, d1], [s0, s1], [c0, c1], _, _, _ =>
    obtain ⟨i, is, rfl, h1, h2⟩ := InBox.cons_iff.1 hi
    obtain ⟨j, js, rfl, h3, h4⟩ := InBox.cons_iff.1 h2
    rw [InBox.nil_iff] at h4; subst h4
    have := copyRows_get inp c1 ((List.range c0).map (fun k => s0 * d1 + s1 + k * d1)) out i j
      (s0 * d1 + s1 + i * d1) h3 (by simp [h1])
    simp only [hyperslabcopy, flat, addIdx, List.zipWith_cons_cons, List.zipWith_nil_left,
      List.prod_cons, List.prod_nil, Nat.mul_one, Nat.add_zero]
    rw [this]; congr 1; ring
  | [d0, d1, d2], [s0, s1, s2], [c0, c1, c2], _, _, _ =>
    obtain ⟨i, is, rfl, h1, h2⟩ := InBox.cons_iff.1 hi
    obtain ⟨j, js, rfl, h3, h4⟩ := InBox.cons_iff.1 h2
    obtain ⟨k, ks, rfl, h5, h6⟩ := InBox.cons_iff.1 h4
    rw [InBox.nil_iff] at h6; subst h6
    have hg := getElem?_flatMap_map (fun k j => s0 * d1 * d2 + s1 * d2 + s2 + k * (d1 * d2) + j * d2)
      (List.range c1) (List.range c0) i j (by simpa using h3)
    simp only [List.length_range, List.getElem?_range h1, List.getElem?_range h3] at hg
    have := copyRows_get inp c2 _ out (i * c1 + j) k _ h5 hg
    simp only [hyperslabcopy, flat, addIdx, List.zipWith_cons_cons, List.zipWith_nil_left,
      List.prod_cons, List.prod_nil, Nat.mul_one, Nat.add_zero]
    have e : i * (c1 * c2) + (j * c2 + k) = (i * c1 + j) * c2 + k := by ring
    rw [e, this]; congr 1; ring

theorem mapM_option_eq_some {α β : Type} {f : α → Option β} : ∀ {l : List α} {r : List β},
    l.mapM f = some r ↔ List.Forall₂ (fun a b => f a = some b) l r := by
  intro l
  induction l with
  | nil =>
    intro r
    simp only [List.mapM_nil]
    constructor
    · intro h; cases h; exact .nil
    · intro h; cases h; rfl
  | cons a l ih =>
    intro r
    rw [List.mapM_cons]
    constructor
    · intro h
      cases ha : f a with
      | none => rw [ha] at h; cases h
      | some b =>
        cases hl : l.mapM f with
        | none => rw [ha, hl] at h; cases h
        | some bs => rw [ha, hl] at h; cases h; exact .cons ha (ih.1 hl)
    · intro h
      cases h with
      | cons h1 h2 => rw [h1, ih.2 h2]; rfl

theorem mapM_option_exists {α β : Type} {f : α → Option β} : ∀ {l : List α},
    (∀ a ∈ l, ∃ b, f a = some b) → ∃ r, l.mapM f = some r := by
  intro l
  induction l with
  | nil => intro _; exact ⟨[], rfl⟩
  | cons a l ih =>
    intro h
    obtain ⟨b, hb⟩ := h a (by simp)
    obtain ⟨r, hr⟩ := ih (fun x hx => h x (by simp [hx]))
    exact ⟨b :: r, by rw [List.mapM_cons, hb, hr]; rfl⟩

theorem mapM_except_exists {ε α β : Type} {f : α → Except ε β} : ∀ {l : List α},
    (∀ a ∈ l, ∃ b, f a = .ok b) →
      ∃ r, l.mapM f = .ok r ∧ List.Forall₂ (fun a b => f a = .ok b) l r := by
  intro l
  induction l with
  | nil => intro _; exact ⟨[], rfl, .nil⟩
  | cons a l ih =>
    intro h
    obtain ⟨b, hb⟩ := h a (by simp)
    obtain ⟨r, hr, hf⟩ := ih (fun x hx => h x (by simp [hx]))
    exact ⟨b :: r, by rw [List.mapM_cons, hb, hr]; rfl, .cons hb hf⟩

theorem forall₂_getElem? {α β : Type} {R : α → β → Prop} : ∀ {l : List α} {r : List β},
    List.Forall₂ R l r → ∀ (n : Nat) (a : α), l[n]? = some a → ∃ b, r[n]? = some b ∧ R a b := by
  intro l r h
  induction h with
  | nil => intro n a h; simp at h
  | cons h1 _ ih =>
    intro n a ha
    cases n with
    | zero => simp at ha; subst ha; exact ⟨_, by simp, h1⟩
    | succ n => simp only [List.getElem?_cons_succ] at ha ⊢; exact ih n a ha

open Spec in
theorem scatterDimExtents_ok (len ndiv other io1 io2 : Nat) (h1 : 1 ≤ ndiv) (h2 : ndiv ≤ len)
    (hio : io1 = 0 ∨ io2 = 0 ∨ ndiv % io1 = 0) :
    ∃ e, scatterDimExtents len ndiv (if decide (io1 ≠ 0 ∧ io2 ≠ 0) = true then io1 else 0) = .ok e ∧
      OrderedPartition 0 (len - 1) e ∧ e.length = (numDivs ndiv other io1 io2).1 := by
  obtain ⟨ext, he, _, hl, hp⟩ := C01_scatter_extents_partition len ndiv h1 h2
  by_cases h : io1 ≠ 0 ∧ io2 ≠ 0
  · obtain ⟨_, io, _, ho, hol, hop, _⟩ := C07_io_layout_partition len ndiv io1 h1 h2 (by omega)
      (by rcases hio with h' | h' | h' <;> omega)
    refine ⟨io, ?_, hop, ?_⟩
    · rw [decide_eq_true h, if_pos rfl, ho]
    · unfold numDivs; rw [if_pos h]; exact hol
  · refine ⟨ext, ?_, hp, ?_⟩
    · rw [decide_eq_false h]
      unfold scatterDimExtents; rw [he]; simp
    · unfold numDivs; rw [if_neg h]; exact hl

open Spec in
theorem scatterDims_spec (fd : List Nat) (kinds : List ScatterKind) (nx ny nxio nyio : Nat)
    (hk : kinds.length = fd.length) (hnx : 1 ≤ nx) (hny : 1 ≤ ny)
    (hx : ∀ (d len : Nat), fd[d]? = some len → kinds[d]? = some .x → nx ≤ len)
    (hy : ∀ (d len : Nat), fd[d]? = some len → kinds[d]? = some .y → ny ≤ len)
    (hio : nxio = 0 ∨ nyio = 0 ∨ (nx % nxio = 0 ∧ ny % nyio = 0)) :
    ∃ sd, scatterDims fd kinds nx ny nxio nyio = .ok sd ∧
      ∀ (d len : Nat) (k : ScatterKind), fd[d]? = some len → kinds[d]? = some k →
        ∃ s : ScatterDim, sd[d]? = some s ∧ s.kind = k ∧ s.len = len ∧
          (k = .x → OrderedPartition 0 (len - 1) s.ext ∧
            s.ext.length = (numDivs nx ny nxio nyio).1) ∧
          (k = .y → OrderedPartition 0 (len - 1) s.ext ∧
            s.ext.length = (numDivs nx ny nxio nyio).2) := by
  have hsw : (numDivs nx ny nxio nyio).2 = (numDivs ny nx nyio nxio).1 := by
    unfold numDivs
    by_cases h : nxio ≠ 0 ∧ nyio ≠ 0
    · rw [if_pos h, if_pos ⟨h.2, h.1⟩]
    · rw [if_neg h, if_neg (fun h' => h ⟨h'.2, h'.1⟩)]
  have hdec : decide (nxio ≠ 0 ∧ nyio ≠ 0) = decide (nyio ≠ 0 ∧ nxio ≠ 0) := by
    rw [decide_eq_decide]; exact and_comm
  unfold scatterDims
  simp only []
  have hex : ∀ p ∈ fd.zip kinds, ∃ s : ScatterDim, (match p.2 with
      | .no => (.ok ⟨.no, p.1, []⟩ : Except ExtErr ScatterDim)
      | .x => (scatterDimExtents p.1 nx (if decide (nxio ≠ 0 ∧ nyio ≠ 0) = true then nxio else 0)).map
          (fun e => ⟨.x, p.1, e⟩)
      | .y => (scatterDimExtents p.1 ny (if decide (nxio ≠ 0 ∧ nyio ≠ 0) = true then nyio else 0)).map
          (fun e => ⟨.y, p.1, e⟩)) = .ok s := by
    rintro ⟨len, k⟩ hp
    obtain ⟨d, hd⟩ := List.mem_iff_getElem?.1 hp
    rw [List.getElem?_zip_eq_some] at hd
    cases k with
    | no => exact ⟨_, rfl⟩
    | x =>
      obtain ⟨e, he, _, _⟩ := scatterDimExtents_ok len nx ny nxio nyio hnx (hx d len hd.1 hd.2)
        (by rcases hio with h | h | h <;> simp [h])
      exact ⟨_, by simp only [he]; rfl⟩
    | y =>
      obtain ⟨e, he, _, _⟩ := scatterDimExtents_ok len ny nx nyio nxio hny (hy d len hd.1 hd.2)
        (by rcases hio with h | h | h <;> simp [h])
      exact ⟨_, by simp only [hdec, he]; rfl⟩
  obtain ⟨sd, h1, h2⟩ := mapM_except_exists hex
  refine ⟨sd, h1, ?_⟩
  intro d len k hd hkd
  obtain ⟨s, hs, hr⟩ := forall₂_getElem? h2 d (len, k)
    (by rw [List.getElem?_zip_eq_some]; exact ⟨hd, hkd⟩)
  refine ⟨s, hs, ?_⟩
  cases k with
  | no =>
    simp only [Except.ok.injEq] at hr; subst hr
    exact ⟨rfl, rfl, (fun h => nomatch h), (fun h => nomatch h)⟩
  | x =>
    obtain ⟨e, he, hp, hl⟩ := scatterDimExtents_ok len nx ny nxio nyio hnx (hx d len hd hkd)
        (by rcases hio with h | h | h <;> simp [h])
    simp only [he, Except.map, Except.ok.injEq] at hr; subst hr
    exact ⟨rfl, rfl, fun _ => ⟨hp, hl⟩, (fun h => nomatch h)⟩
  | y =>
    obtain ⟨e, he, hp, hl⟩ := scatterDimExtents_ok len ny nx nyio nxio hny (hy d len hd hkd)
        (by rcases hio with h | h | h <;> simp [h])
    simp only [hdec, he, Except.map, Except.ok.injEq] at hr; subst hr
    exact ⟨rfl, rfl, (fun h => nomatch h), fun _ => ⟨hp, hsw ▸ hl⟩⟩

/-- What is known about dimension `d` in one tile. -/
structure TileOk (fd : List Nat) (sd : List ScatterDim) (xi yi : Nat) (iv : Nat → Int × Int)
    (d : Nat) : Prop where
  ex : ∃ len, fd[d]? = some len ∧ 0 ≤ (iv d).1 ∧ (iv d).2 < len ∧ (iv d).1 ≤ (iv d).2 + 1
  tile : (sd[d]?).bind (fun s => s.tile xi yi) =
    some ((iv d).1.toNat, ((iv d).2 - (iv d).1 + 1).toNat)

open Spec in
theorem tiles_spec (fd : List Nat) (sd : List ScatterDim) (xi yi : Nat) (iv : Nat → Int × Int) :
    ∀ dims : List Nat, (∀ d ∈ dims, TileOk fd sd xi yi iv d) →
      ∃ ts shape, tiles sd xi yi dims = some ts ∧ lens fd dims = some shape ∧
        ts.length = dims.length ∧ shape.length = dims.length ∧
        ∀ g l, LocalIdx iv dims g l →
          InBox (ts.map Prod.snd) l ∧ g = addIdx (ts.map Prod.fst) l ∧ InBox shape g := by
  intro dims
  induction dims with
  | nil =>
    intro _
    refine ⟨[], [], rfl, rfl, rfl, rfl, ?_⟩
    intro g l h
    match g, l, h with
    | [], [], _ => exact ⟨.nil, rfl, .nil⟩
  | cons d ds ih =>
    intro h
    obtain ⟨ts, shape, h1, h2, h3, h4, h5⟩ := ih (fun x hx => h x (by simp [hx]))
    obtain ⟨⟨len, hlen, h0, hlt, hle⟩, ht⟩ := h d (by simp)
    refine ⟨((iv d).1.toNat, ((iv d).2 - (iv d).1 + 1).toNat) :: ts, len :: shape, ?_, ?_,
      by simp [h3], by simp [h4], ?_⟩
    · unfold tiles at h1 ⊢; rw [List.mapM_cons, ht, h1]; rfl
    · unfold lens at h2 ⊢; rw [List.mapM_cons, hlen, h2]; rfl
    · intro g l hl
      match g, l, hl with
      | g :: gs, l :: ls, hl =>
        obtain ⟨a, b, c, e⟩ := hl
        obtain ⟨r1, r2, r3⟩ := h5 gs ls e
        refine ⟨.cons (by omega) r1, ?_, .cons (by omega) r3⟩
        simp only [List.map_cons, addIdx, List.zipWith_cons_cons, List.cons.injEq]
        exact ⟨by omega, r2⟩

/-- The four-dimensional case of `hyperslabcopy` is right if the first dimension has length 1. -/
theorem hyperslabcopy_get4 {α : Type} (ds start count idx : List Nat) (inp out : Nat → α)
    (h3 : ds.length = 3) (hs : start.length = 3) (hc : count.length = 3) (hi : InBox count idx) :
    hyperslabcopy (1 :: ds) (0 :: start) (1 :: count) inp out (flat (1 :: count) (0 :: idx)) =
      inp (flat (1 :: ds) (addIdx (0 :: start) (0 :: idx))) := by
  have := hyperslabcopy_get ds start count idx inp out (by omega) (by omega) hi (by omega)
  match ds, start, count, h3, hs, hc with
  | [d1, d2, d3], [s1, s2, s3], [c1, c2, c3], _, _, _ =>
    simp only [hyperslabcopy] at this ⊢
    simp only [flat, addIdx, List.zipWith_cons_cons, Nat.zero_mul, Nat.zero_add] at this ⊢
    exact this

/-- Shapes that `put_var` handles: at most 3 dimensions, or 4 if the first one is the record
dimension or has length 1. -/
def GoodShape {α : Type} (f : NcFile α) (v : NcVar α) : Prop :=
  v.dims.length ≤ 3 ∨ (v.dims.length = 4 ∧
    ∃ d, v.dims.head? = some d ∧ (f.recdim = some d ∨ f.dims[d]? = some 1))

open Spec in
theorem scatterStatic_spec {α : Type} (fd : List Nat) (sd : List ScatterDim) (xi yi : Nat)
    (iv : Nat → Int × Int) (junk : Nat → α) (old : List Nat → α) (v : NcVar α)
    (hok : ∀ d ∈ v.dims, TileOk fd sd xi yi iv d) (h4 : v.dims.length ≤ 4) :
    ∃ w, scatterStatic fd sd xi yi junk old v = some w ∧
      ((v.dims.length ≤ 3 ∨ (v.dims.length = 4 ∧ ∃ d, v.dims.head? = some d ∧ fd[d]? = some 1)) →
        ∀ g l, LocalIdx iv v.dims g l → w l = v.val g) := by
  obtain ⟨ts, shape, h1, h2, h3, h5, h6⟩ := tiles_spec fd sd xi yi iv v.dims hok
  unfold scatterStatic
  rw [h1, h2]
  simp only []
  by_cases h0 : v.dims.length = 0
  · rw [if_pos h0]
    refine ⟨_, rfl, ?_⟩
    intro _ g l hl
    have hd : v.dims = [] := List.length_eq_zero_iff.1 h0
    rw [hd] at hl
    match g, l, hl with
    | [], [], _ => simp [putVara, inSlab, getVar, unflat, flat, subIdx]
  · rw [if_neg h0, if_neg (by omega)]
    refine ⟨_, rfl, ?_⟩
    intro hgood g l hl
    obtain ⟨r1, r2, r3⟩ := h6 g l hl
    have hll : l.length = ts.length := by rw [r1.length, List.length_map]
    have e : l = addIdx (List.replicate (ts.map Prod.snd).length 0) l :=
      (addIdx_zero l _ (by rw [List.length_map, hll])).symm
    have key : hyperslabcopy shape (ts.map Prod.fst) (ts.map Prod.snd) (getVar v.val shape) junk
        (flat (ts.map Prod.snd) l) = getVar v.val shape (flat shape (addIdx (ts.map Prod.fst) l)) := by
      rcases hgood with hg | ⟨hg, d, hd, hone⟩
      · exact hyperslabcopy_get shape _ _ l _ _ (by omega) (by simp; omega) r1 (by simp; omega)
      · -- first dimension of length 1
        match hv : v.dims, hg, hd with
        | d0 :: ds, hg, hd =>
          simp only [List.head?_cons, Option.some.injEq] at hd; subst hd
          rw [hv] at h1 h2 hl h3 h5 hok
          match ts, shape, l, g, h3, h5, hl with
          | t :: ts, n :: shape, l0 :: ls, g0 :: gs, h3, h5, hl =>
            have hn : n = 1 := by
              unfold lens at h2
              rw [mapM_option_eq_some] at h2
              cases h2 with
              | cons a b => rw [hone] at a; simpa using a.symm
            subst hn
            have ht := (hok d0 (by simp)).tile
            obtain ⟨len, hlen, b1, b2, b3⟩ := (hok d0 (by simp)).ex
            rw [hone] at hlen; simp only [Option.some.injEq] at hlen; subst hlen
            have htt : t = ((iv d0).1.toNat, ((iv d0).2 - (iv d0).1 + 1).toNat) := by
              unfold tiles at h1
              rw [mapM_option_eq_some] at h1
              cases h1 with
              | cons a b => rw [ht] at a; simpa using a.symm
            obtain ⟨q1, q2, q3, _⟩ := hl
            have i1 : (iv d0).1 = 0 := by omega
            have i2 : (iv d0).2 = 0 := by omega
            rw [i1, i2] at htt
            have l0z : l0 = 0 := by omega
            subst l0z
            subst htt
            simp only [List.map_cons] at r1 ⊢
            obtain ⟨_, _, hh, _, r1'⟩ := InBox.cons_iff.1 r1
            simp only [List.cons.injEq] at hh
            rw [← hh.2] at r1'
            simp only [List.length_cons] at h3 h5 hg
            exact hyperslabcopy_get4 shape (ts.map Prod.fst) (ts.map Prod.snd) ls _ _
              (by omega) (by simp; omega) (by simp; omega) r1'
    conv_lhs => rw [e]
    rw [putVara_in old _ r1 (by simp), key, ← r2]
    unfold getVar
    rw [unflat_flat r3]

open Spec in
theorem scatterRecord_spec {α : Type} (fd : List Nat) (sd : List ScatterDim) (xi yi nrec : Nat)
    (iv : Nat → Int × Int) (junk : Nat → Nat → α) (old : List Nat → α) (rest : List Nat)
    (val : List Nat → α) (hok : ∀ d ∈ rest, TileOk fd sd xi yi iv d) (h3 : rest.length ≤ 3) :
    ∃ w, scatterRecord fd sd xi yi nrec junk old rest val = some w ∧
      ∀ r g l, r < nrec → LocalIdx iv rest g l → w (r :: l) = val (r :: g) := by
  obtain ⟨ts, shape, h1, h2, h4, h5, h6⟩ := tiles_spec fd sd xi yi iv rest hok
  unfold scatterRecord
  rw [h1, h2]
  simp only []
  rw [if_neg (by omega)]
  refine ⟨_, rfl, ?_⟩
  have := forPure_inv (f := fun reci out =>
        putVara out (reci :: List.replicate (ts.map Prod.snd).length 0) (1 :: ts.map Prod.snd)
          (hyperslabcopy shape (ts.map Prod.fst) (ts.map Prod.snd)
            (getVara val (reci :: List.replicate shape.length 0) (1 :: shape)) (junk reci)))
    (fun k out => ∀ r g l, r < k → LocalIdx iv rest g l → out (r :: l) = val (r :: g))
    nrec 0 old (fun r g l h => by omega) (by
      intro k out _ hk ih r g l hr hl
      obtain ⟨r1, r2, r3⟩ := h6 g l hl
      have hll : l.length = ts.length := by rw [r1.length, List.length_map]
      by_cases hrk : r = k
      · subst hrk
        have e : r :: l = addIdx (r :: List.replicate (ts.map Prod.snd).length 0) (0 :: l) := by
          have := addIdx_zero l (ts.map Prod.snd).length (by rw [List.length_map, hll])
          simp only [addIdx] at this
          simp only [addIdx, List.zipWith_cons_cons, this, Nat.add_zero]
        have hb : InBox (1 :: ts.map Prod.snd) (0 :: l) := .cons (by omega) r1
        conv_lhs => rw [e]
        rw [putVara_in out _ hb (by simp)]
        have ef : flat (1 :: ts.map Prod.snd) (0 :: l) = flat (ts.map Prod.snd) l := by simp [flat]
        rw [ef, hyperslabcopy_get shape _ _ l _ _ (by omega) (by simp; omega) r1 (by simp; omega),
          ← r2]
        have hg : InBox (1 :: shape) (0 :: g) := .cons (by omega) r3
        have ef2 : flat shape g = flat (1 :: shape) (0 :: g) := by simp [flat]
        unfold getVara
        rw [ef2, unflat_flat hg]
        have e3 := addIdx_zero g shape.length (by rw [r3.length])
        simp only [addIdx] at e3
        simp only [addIdx, List.zipWith_cons_cons, e3, Nat.add_zero]
      · have hno : ¬ inSlab (k :: List.replicate (ts.map Prod.snd).length 0) (1 :: ts.map Prod.snd)
            (r :: l) = true := by
          simp only [inSlab, Bool.and_eq_true, decide_eq_true_eq]
          rintro ⟨⟨a, b⟩, _⟩; omega
        rw [putVara_out out _ hno]
        exact ih r g l (by omega) hl)
  intro r g l hr hl
  exact this r g l (by omega) hl

open Spec in
theorem scatterVar_spec {α : Type} (f : NcFile α) (hf : f.WF) (sd : List ScatterDim) (xi yi : Nat)
    (iv : Nat → Int × Int) (junk : Nat → Nat → α) (old : List Nat → α) (v : NcVar α)
    (hv : v ∈ f.vars) (hok : ∀ d, d < f.dims.length → TileOk f.dims sd xi yi iv d)
    (hrec : ∀ (r nrec : Nat), f.recdim = some r → f.dims[r]? = some nrec → iv r = (0, (nrec : Int) - 1))
    (h4 : v.dims.length ≤ 4) :
    ∃ w, scatterVar f sd xi yi junk old v = some w ∧ w.dims = v.dims ∧ w.coord = v.coord ∧
      w.missing = v.missing ∧ w.decomp = scatterAttr sd xi yi v ∧
      (GoodShape f v → ∀ g l, LocalIdx iv v.dims g l → w.val l = v.val g) := by
  have hstat : (∀ d, v.dims.head? = some d → f.recdim ≠ some d) →
      ∃ w, (scatterStatic f.dims sd xi yi (junk 0) old v).map
          (fun w => { v with decomp := scatterAttr sd xi yi v, val := w }) = some w ∧
        w.dims = v.dims ∧ w.coord = v.coord ∧
        w.missing = v.missing ∧ w.decomp = scatterAttr sd xi yi v ∧
        (GoodShape f v → ∀ g l, LocalIdx iv v.dims g l → w.val l = v.val g) := by
    intro hne
    obtain ⟨w, h1, h2⟩ := scatterStatic_spec f.dims sd xi yi iv (junk 0) old v
      (fun d hd => hok d (hf.dim_lt v hv d hd)) h4
    rw [h1]
    refine ⟨_, rfl, rfl, rfl, rfl, rfl, ?_⟩
    intro hg
    apply h2
    rcases hg with hg | ⟨hg, d, hd, hr | hr⟩
    · exact .inl hg
    · exact absurd hr (hne d hd)
    · exact .inr ⟨hg, d, hd, hr⟩
  unfold scatterVar
  simp only []
  cases hd : v.dims with
  | nil =>
    simp only []
    rw [← hd]
    exact hstat (by rw [hd]; simp)
  | cons d rest =>
    cases hr : f.recdim with
    | none => simp only []; rw [← hd]; exact hstat (by rw [hr]; simp)
    | some r =>
      simp only []
      by_cases hdr : d = r
      · subst hdr
        have hlt := hf.rec_lt d hr
        rw [if_pos rfl, List.getElem?_eq_getElem hlt]
        simp only []
        obtain ⟨w, h1, h2⟩ := scatterRecord_spec f.dims sd xi yi f.dims[d] iv junk old rest v.val
          (fun x hx => hok x (hf.dim_lt v hv x (by rw [hd]; simp [hx])))
          (by rw [hd] at h4; simpa using h4)
        rw [h1]
        refine ⟨_, rfl, rfl, rfl, rfl, rfl, ?_⟩
        intro _ g l hl
        have hiv := hrec d f.dims[d] hr (List.getElem?_eq_getElem hlt)
        match g, l, hl with
        | g :: gs, l :: ls, hl =>
          obtain ⟨a, b, c, e⟩ := hl
          rw [hiv] at a b c
          have : l = g := by simp at c; omega
          subst this
          exact h2 l gs ls (by simp at b; omega) e
      · rw [if_neg hdr, ← hd]
        exact hstat (by rw [hd, hr]; intro x hx; simp at hx; subst hx; simpa using fun h => hdr h.symm)

end Verif
