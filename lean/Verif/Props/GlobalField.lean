import Verif.Lemmas.GlobalField
import Verif.Props.Decomposition
/-
Property C06: assembling a distributed field, for every interleaving of the processors.
-/
namespace Verif
open Spec
variable {α : Type}

theorem defineDomain2D_ok (ni nj l0 l1 : Nat) (xhalo yhalo : Int) (h0 : 1 ≤ l0) (h0' : l0 ≤ ni)
    (h1 : 1 ≤ l1) (h1' : l1 ≤ nj) (dom : Domain2D)
    (hd : defineDomain2D ni nj l0 l1 xhalo yhalo = .ok dom) :
    ∃ xs ys, OrderedPartition 0 (ni - 1) xs ∧ OrderedPartition 0 (nj - 1) ys ∧
      dom = Domain2D.mk (ys.flatMap (fun y => xs.map (fun x =>
        (x.1 + xhalo, x.2 + xhalo, y.1 + yhalo, y.2 + yhalo)))) ni nj xhalo yhalo := by
  obtain ⟨xs, hx, _, hxp⟩ := C01_extents_partition ni l0 h0 h0'
  obtain ⟨ys, hy, _, hyp⟩ := C01_extents_partition nj l1 h1 h1'
  refine ⟨xs, ys, hxp, hyp, ?_⟩
  unfold defineDomain2D at hd
  rw [hx, hy] at hd
  exact (Except.ok.inj hd).symm

/-- The data of one processor as it goes into the assembly. -/
theorem block_packed (dom : Domain2D) (p : Nat) (b : Int × Int × Int × Int)
    (hb : dom.pes[p]? = some b) (hlo : b.1 ≤ b.2.1 ∧ b.2.2.1 ≤ b.2.2.2)
    (hx : 0 ≤ dom.xhalo) (hy : 0 ≤ dom.yhalo)
    (sx sy : Int) (hsx : sx = 0 ∨ sx = 1) (hsy : sy = 0 ∨ sy = 1) (nz : Nat) (l : LocalField α)
    (F : Int → Int → Int → α)
    (h : HoldsBlock b.1 b.2.1 b.2.2.1 b.2.2.2 dom.xhalo dom.yhalo sx sy nz l.sizex l.sizey l.ldata F) :
    ∃ d, ownOf dom p = some d ∧ getShift d l.sizex l.sizey = some (sx, sy) ∧
      packLocal d l nz = some ((cells b.1 (b.2.1 + sx) b.2.2.1 (b.2.2.2 + sy) nz).map
        (fun c => F c.1 c.2.1 c.2.2)) := by
  refine ⟨⟨b.1, b.2.1, b.2.2.1, b.2.2.2, dom.xhalo, dom.yhalo⟩, by simp [ownOf, hb], ?_, ?_⟩
  · exact getShift_of_holds ⟨b.1, b.2.1, b.2.2.1, b.2.2.2, dom.xhalo, dom.yhalo⟩ l sx sy nz F hx hy
      hsx hsy h
  · exact packLocal_of_holds ⟨b.1, b.2.1, b.2.2.1, b.2.2.2, dom.xhalo, dom.yhalo⟩ l sx sy nz F hx hy
      hlo.1 hlo.2 hsx hsy h

/-- C06. Every processor holds its part of a field `F` (on its compute domain or on its data domain,
each processor may choose; cell or corner data according to `sx`, `sy`). Then, for every order in
which the processors may act and every amount of buffering by MPI:
* no execution is longer than a fixed number of steps,
* no state is stuck: unless all processors have returned, one can move even without any buffering,
* when all have returned, the root has the complete field: element `(i, j, k)` of its array, stored
  with `i` fastest and with row and plane lengths `ni + sx`, `nj + sy`, is `F i j k`.
With a halo the array positions are shifted by the halo (see `C06_halo_out_of_bounds`). Levels
(`nz > 1`) need `sx = sy`, see `C06_3d_staggered_wrong`. -/
theorem C06_global_field_levels (ni nj l0 l1 : Nat) (xhalo yhalo : Int) (h0 : 1 ≤ l0) (h0' : l0 ≤ ni)
    (h1 : 1 ≤ l1) (h1' : l1 ≤ nj) (hx : 0 ≤ xhalo) (hy : 0 ≤ yhalo) (dom : Domain2D)
    (hd : defineDomain2D ni nj l0 l1 xhalo yhalo = .ok dom)
    (sx sy : Int) (hsx : sx = 0 ∨ sx = 1) (hsy : sy = 0 ∨ sy = 1) (nz : Nat)
    (hlev : sx = sy ∨ nz ≤ 1) (root : Nat) (hroot : root < dom.pes.length)
    (l : Nat → LocalField α) (F : Int → Int → Int → α)
    (hold : ∀ (p : Nat) (isc iec jsc jec : Int), dom.pes[p]? = some (isc, iec, jsc, jec) →
      HoldsBlock isc iec jsc jec xhalo yhalo sx sy nz (l p).sizex (l p).sizey (l p).ldata F)
    (g0 : Mem α) :
    (∀ p, p < dom.pes.length → (globalFieldProg dom nz root p (l p) g0).isSome) ∧
    ∀ progs : Nat → Prog α (Mem α),
      (∀ p, p < dom.pes.length → globalFieldProg dom nz root p (l p) g0 = some (progs p)) →
      (∀ p, dom.pes.length ≤ p → progs p = .done g0) →
      ∃ L, ∀ steps M, Exec false steps (Net.start progs) M →
        steps ≤ L ∧ (¬ M.AllDone → ∃ p M', NStep true p M M') ∧
        (M.AllDone → ∃ g, M.prog root = .done g ∧
          ∀ i j k : Int, xhalo ≤ i → i < xhalo + ni + sx → yhalo ≤ j → j < yhalo + nj + sy →
            0 ≤ k → k < nz → g ((k * (nj + sy) + j) * (ni + sx) + i) = some (F i j k)) := by
  obtain ⟨xs, ys, hxs, hys, hdom⟩ := defineDomain2D_ok ni nj l0 l1 xhalo yhalo h0 h0' h1 h1' dom hd
  have hxh : dom.xhalo = xhalo := by rw [hdom]
  have hyh : dom.yhalo = yhalo := by rw [hdom]
  have key : ∀ p, p < dom.pes.length → ∃ b, dom.pes[p]? = some b ∧ ∃ d, ownOf dom p = some d ∧
      getShift d (l p).sizex (l p).sizey = some (sx, sy) ∧
      packLocal d (l p) nz = some ((cells b.1 (b.2.1 + sx) b.2.2.1 (b.2.2.2 + sy) nz).map
        (fun c => F c.1 c.2.1 c.2.2)) := by
    intro p hp
    obtain ⟨b, hb⟩ : ∃ b, dom.pes[p]? = some b := ⟨_, List.getElem?_eq_getElem hp⟩
    refine ⟨b, hb, block_packed dom p b hb ?_ (by omega) (by omega) sx sy hsx hsy nz (l p) F ?_⟩
    · have hbm := List.mem_of_getElem? hb
      rw [hdom] at hbm
      simp only [List.mem_flatMap, List.mem_map] at hbm
      obtain ⟨y, hy, x, hx, rfl⟩ := hbm
      have := hxs.bounds x hx
      have := hys.bounds y hy
      simp only
      omega
    · rw [hxh, hyh]; exact hold p _ _ _ _ hb
  let m : Nat → List α := fun p => match dom.pes[p]? with
    | none => []
    | some b => (cells b.1 (b.2.1 + sx) b.2.2.1 (b.2.2.2 + sy) nz).map (fun c => F c.1 c.2.1 c.2.2)
  have hm : ∀ p b, dom.pes[p]? = some b → m p =
      (cells b.1 (b.2.1 + sx) b.2.2.1 (b.2.2.2 + sy) nz).map (fun c => F c.1 c.2.1 c.2.2) := by
    intro p b hb; simp only [m, hb]
  have hprog : ∀ p, p < dom.pes.length → globalFieldProg dom nz root p (l p) g0 =
      some (if p = root then
        recvLoop (fun p => p != root) (storeBlock dom sx sy nz)
          (fun g q => storeBlock dom sx sy nz g q (m p))
          (fun g => .sync (.done g)) (List.range dom.pes.length) g0
      else .send root (m p) (.sync (.done g0))) := by
    intro p hp
    obtain ⟨b, hb, d, hd1, hd2, hd3⟩ := key p hp
    unfold globalFieldProg
    simp only [hd1, hd2, hd3, hm p b hb]
  refine ⟨fun p hp => by rw [hprog p hp]; rfl, ?_⟩
  intro progs hpr hdn
  have hpr' : ∀ p, p < dom.pes.length → progs p =
      sendLoop ((fun x y => x != root && y == root) p) ((fun x _ => m x) p)
        (recvLoop (fun q => (fun x y => x != root && y == root) q p) ((fun _ => storeBlock dom sx sy nz) p)
          ((fun x g q => if x = root then storeBlock dom sx sy nz g q (m x) else g) p)
          (fun g => .sync (.done g)) (List.range dom.pes.length) ((fun _ => g0) p))
        (List.range dom.pes.length) := by
    intro p hp
    have := hpr p hp
    rw [hprog p hp] at this
    have := (Option.some.inj this).symm
    rw [this]
    by_cases hpr : p = root
    · subst hpr
      rw [sendLoop_none _ _ _ _ (by simp)]
      simp
    · rw [sendLoop_single root _ _ _ (by simp [hpr]) _ List.nodup_range (by simpa using hroot)
        (by intro q _ hq; simp [hq])]
      have hrl := recvLoop_none (fun q => q != root && p == root) (storeBlock dom sx sy nz)
        (fun g q => if p = root then storeBlock dom sx sy nz g q (m p) else g)
        (fun g => Prog.sync (.done g)) (List.range dom.pes.length) g0 (by simp [hpr]) (by simp [hpr])
      rw [hrl, if_neg hpr]
  obtain ⟨L, N, hex, hall, hres⟩ := one_round dom.pes.length _ _ _ _ _ progs hpr'
    (fun p hp => ⟨g0, hdn p hp⟩)
  refine ⟨L, fun steps M hM => ?_⟩
  obtain ⟨a, b, c⟩ := Net.outcome hex hall steps M hM
  refine ⟨a, c, fun hd => ?_⟩
  rw [b hd]
  refine ⟨_, hres root hroot, ?_⟩
  intro i j k hi1 hi2 hj1 hj2 hk1 hk2
  have hfold : recvFold (fun q => q != root && root == root) (storeBlock dom sx sy nz)
      (fun g q => if root = root then storeBlock dom sx sy nz g q (m root) else g)
      (fun q => m q) (List.range dom.pes.length) g0 =
      store g0 ((List.range dom.pes.length).flatMap (fun p => blockWrites dom sx sy nz p (m p))) := by
    rw [← foldl_store]
    unfold recvFold
    congr 1
    funext g p
    by_cases hpr : p = root
    · subst hpr; simp [storeBlock_eq]
    · simp [hpr, storeBlock_eq]
  simp only [] at hfold ⊢
  rw [hfold]
  exact assembled ni nj xs ys xhalo yhalo dom (by omega) (by omega) hxs hys hdom sx sy hsx hsy nz hlev F
    m hm g0 i j k ⟨hi1, hi2⟩ ⟨hj1, hj2⟩ ⟨hk1, hk2⟩

/-- C06 for the 2-D routines `mpp_global_field_double` and `mpp_global_field_int` without halo, which
is how every caller in the repository uses them: cell or corner data, staggered in either
direction. -/
theorem C06_global_field (ni nj l0 l1 : Nat) (h0 : 1 ≤ l0) (h0' : l0 ≤ ni)
    (h1 : 1 ≤ l1) (h1' : l1 ≤ nj) (dom : Domain2D)
    (hd : defineDomain2D ni nj l0 l1 0 0 = .ok dom)
    (sx sy : Int) (hsx : sx = 0 ∨ sx = 1) (hsy : sy = 0 ∨ sy = 1)
    (root : Nat) (hroot : root < dom.pes.length)
    (l : Nat → LocalField α) (F : Int → Int → α)
    (hold : ∀ (p : Nat) (isc iec jsc jec : Int), dom.pes[p]? = some (isc, iec, jsc, jec) →
      HoldsBlock isc iec jsc jec 0 0 sx sy 1 (l p).sizex (l p).sizey (l p).ldata
        (fun i j _ => F i j))
    (g0 : Mem α) :
    (∀ p, p < dom.pes.length → (globalFieldProg dom 1 root p (l p) g0).isSome) ∧
    ∀ progs : Nat → Prog α (Mem α),
      (∀ p, p < dom.pes.length → globalFieldProg dom 1 root p (l p) g0 = some (progs p)) →
      (∀ p, dom.pes.length ≤ p → progs p = .done g0) →
      ∃ L, ∀ steps M, Exec false steps (Net.start progs) M →
        steps ≤ L ∧ (¬ M.AllDone → ∃ p M', NStep true p M M') ∧
        (M.AllDone → ∃ g, M.prog root = .done g ∧
          ∀ i j : Int, 0 ≤ i → i < ni + sx → 0 ≤ j → j < nj + sy →
            g (j * (ni + sx) + i) = some (F i j)) := by
  obtain ⟨hs, hm⟩ := C06_global_field_levels ni nj l0 l1 0 0 h0 h0' h1 h1'
    (Int.le_refl 0) (Int.le_refl 0) dom hd sx sy hsx hsy 1 (Or.inr (Nat.le_refl 1)) root hroot l
    (fun i j _ => F i j) hold g0
  refine ⟨hs, fun progs hp hdn => ?_⟩
  obtain ⟨L, hL⟩ := hm progs hp hdn
  refine ⟨L, fun steps M hM => ?_⟩
  obtain ⟨a, b, c⟩ := hL steps M hM
  refine ⟨a, b, fun hd => ?_⟩
  obtain ⟨g, hg, hv⟩ := c hd
  refine ⟨g, hg, fun i j hi1 hi2 hj1 hj2 => ?_⟩
  have := hv i j 0 hi1 (by omega) hj1 (by omega) (Int.le_refl 0) (by omega)
  simpa using this

/-- C06 for `mpp_global_field_all_double` without halo: the field arrives on every processor. -/
theorem C06_global_field_all (ni nj l0 l1 : Nat) (h0 : 1 ≤ l0) (h0' : l0 ≤ ni)
    (h1 : 1 ≤ l1) (h1' : l1 ≤ nj) (dom : Domain2D)
    (hd : defineDomain2D ni nj l0 l1 0 0 = .ok dom)
    (sx sy : Int) (hsx : sx = 0 ∨ sx = 1) (hsy : sy = 0 ∨ sy = 1)
    (l : Nat → LocalField α) (F : Int → Int → α)
    (hold : ∀ (p : Nat) (isc iec jsc jec : Int), dom.pes[p]? = some (isc, iec, jsc, jec) →
      HoldsBlock isc iec jsc jec 0 0 sx sy 1 (l p).sizex (l p).sizey (l p).ldata
        (fun i j _ => F i j))
    (g0 : Mem α) :
    (∀ p, p < dom.pes.length → (globalFieldAllProg dom p (l p) g0).isSome) ∧
    ∀ progs : Nat → Prog α (Mem α),
      (∀ p, p < dom.pes.length → globalFieldAllProg dom p (l p) g0 = some (progs p)) →
      (∀ p, dom.pes.length ≤ p → progs p = .done g0) →
      ∃ L, ∀ steps M, Exec false steps (Net.start progs) M →
        steps ≤ L ∧ (¬ M.AllDone → ∃ p M', NStep true p M M') ∧
        (M.AllDone → ∀ pe, pe < dom.pes.length → ∃ g, M.prog pe = .done g ∧
          ∀ i j : Int, 0 ≤ i → i < ni + sx → 0 ≤ j → j < nj + sy →
            g (j * (ni + sx) + i) = some (F i j)) := by
  obtain ⟨xs, ys, hxs, hys, hdom⟩ := defineDomain2D_ok ni nj l0 l1 0 0 h0 h0' h1 h1' dom hd
  have hxh : dom.xhalo = 0 := by rw [hdom]
  have hyh : dom.yhalo = 0 := by rw [hdom]
  have key : ∀ p, p < dom.pes.length → ∃ b, dom.pes[p]? = some b ∧ ∃ d, ownOf dom p = some d ∧
      getShift d (l p).sizex (l p).sizey = some (sx, sy) ∧
      packLocal d (l p) 1 = some ((cells b.1 (b.2.1 + sx) b.2.2.1 (b.2.2.2 + sy) 1).map
        (fun c => F c.1 c.2.1)) := by
    intro p hp
    obtain ⟨b, hb⟩ : ∃ b, dom.pes[p]? = some b := ⟨_, List.getElem?_eq_getElem hp⟩
    refine ⟨b, hb, block_packed dom p b hb ?_ (by omega) (by omega) sx sy hsx hsy 1 (l p)
      (fun i j _ => F i j) ?_⟩
    · have hbm := List.mem_of_getElem? hb
      rw [hdom] at hbm
      simp only [List.mem_flatMap, List.mem_map] at hbm
      obtain ⟨y, hy, x, hx, rfl⟩ := hbm
      have := hxs.bounds x hx
      have := hys.bounds y hy
      simp only
      omega
    · rw [hxh, hyh]; exact hold p _ _ _ _ hb
  let m : Nat → List α := fun p => match dom.pes[p]? with
    | none => []
    | some b => (cells b.1 (b.2.1 + sx) b.2.2.1 (b.2.2.2 + sy) 1).map (fun c => F c.1 c.2.1)
  have hm : ∀ p b, dom.pes[p]? = some b → m p =
      (cells b.1 (b.2.1 + sx) b.2.2.1 (b.2.2.2 + sy) 1).map (fun c => F c.1 c.2.1) := by
    intro p b hb; simp only [m, hb]
  have hprog : ∀ p, p < dom.pes.length → globalFieldAllProg dom p (l p) g0 =
      some (if dom.pes.length = 1 then
        .done (store g0 (zipWrites ((List.range (m p).length).map (fun n : Nat => (n : Int))) (m p)))
      else
        sendLoop (fun _ => true) (fun _ => m p)
          (recvLoop (fun _ => true) (storeBlock dom sx sy 1) (fun g _ => g)
            (fun g => .sync (.done g)) (List.range dom.pes.length) g0)
          (List.range dom.pes.length)) := by
    intro p hp
    obtain ⟨b, hb, d, hd1, hd2, hd3⟩ := key p hp
    unfold globalFieldAllProg
    simp only [hd1, hd2, hd3, hm p b hb]
  refine ⟨fun p hp => by rw [hprog p hp]; rfl, ?_⟩
  intro progs hpr hdn
  by_cases hone : dom.pes.length = 1
  · -- one processor: nothing is sent, the array is copied
    have hdone : (Net.start progs).AllDone := by
      intro p
      by_cases hp : p < dom.pes.length
      · have := hpr p hp
        rw [hprog p hp, if_pos hone] at this
        exact ⟨_, (Option.some.inj this).symm⟩
      · exact ⟨g0, hdn p (by omega)⟩
    refine ⟨0, fun steps M hM => ?_⟩
    obtain ⟨a, b, c⟩ := Net.outcome (Exec.nil (Net.start progs)) hdone steps M hM
    refine ⟨a, c, fun hd pe hpe => ?_⟩
    rw [b hd]
    have := hpr pe hpe
    rw [hprog pe hpe, if_pos hone] at this
    refine ⟨_, (Option.some.inj this).symm, ?_⟩
    -- the only block is the whole grid
    have hmul : ys.length * xs.length = 1 := by
      rw [hdom] at hone
      simpa only [length_flatMap_map] using hone
    have hyl : ys.length = 1 := Nat.eq_one_of_mul_eq_one_right hmul
    have hxl : xs.length = 1 := Nat.eq_one_of_mul_eq_one_left hmul
    obtain ⟨x, rfl⟩ := List.length_eq_one_iff.1 hxl
    obtain ⟨y, rfl⟩ := List.length_eq_one_iff.1 hyl
    have hx2 : x.1 = 0 ∧ x.2 = ni - 1 := by
      obtain ⟨b, e⟩ := x
      simp only [OrderedPartition] at hxs
      exact ⟨hxs.1, by have := hxs.2.2; simp only; omega⟩
    have hy2 : y.1 = 0 ∧ y.2 = nj - 1 := by
      obtain ⟨b, e⟩ := y
      simp only [OrderedPartition] at hys
      exact ⟨hys.1, by have := hys.2.2; simp only; omega⟩
    have hpe0 : pe = 0 := by omega
    subst hpe0
    have hm0 := hm 0 (x.1 + 0, x.2 + 0, y.1 + 0, y.2 + 0) (by rw [hdom]; simp)
    simp only [Int.add_zero] at hm0
    rw [hx2.1, hx2.2, hy2.1, hy2.2] at hm0
    have hcells := range_eq_cells 0 0 ((ni : Int) + sx) ((nj : Int) + sy) 1 (by omega) (by omega)
      (fun n : Int => n)
    have e1 : (0 : Int) + ((ni : Int) + sx) - 1 = (ni : Int) - 1 + sx := by omega
    have e2 : (0 : Int) + ((nj : Int) + sy) - 1 = (nj : Int) - 1 + sy := by omega
    rw [e1, e2] at hcells
    have hlen : (m 0).length = (((ni : Int) + sx) * ((nj : Int) + sy) * (1 : Nat)).toNat := by
      have := congrArg List.length hcells
      rw [List.length_map, List.length_range, List.length_map] at this
      rw [hm0, List.length_map, this]
    rw [hlen, hcells, hm0, zipWrites_map]
    intro i j hi1 hi2 hj1 hj2
    apply store_read
    · intro w hw he
      rw [List.mem_map] at hw
      obtain ⟨c, hc, rfl⟩ := hw
      rw [mem_cells] at hc
      simp only [Int.sub_zero] at he
      have hc0 : c.2.2 = 0 := by omega
      rw [hc0] at he
      obtain ⟨h1, h2⟩ := rowMajor_inj (ni + sx) 0 c.2.1 j c.1 i (by omega) (by omega)
        (by rw [← he]; ring)
      simp only [h1, h2]
    · refine ⟨(_, _), List.mem_map.2 ⟨(i, j, 0), ?_, rfl⟩, ?_⟩
      · rw [mem_cells]; simp only; omega
      · simp
  · have hpr' : ∀ p, p < dom.pes.length → progs p =
        sendLoop ((fun _ _ => true) p) ((fun x _ => m x) p)
          (recvLoop (fun q => (fun _ _ => true) q p) ((fun _ => storeBlock dom sx sy 1) p)
            ((fun _ g _ => g) p)
            (fun g => .sync (.done g)) (List.range dom.pes.length) ((fun _ => g0) p))
          (List.range dom.pes.length) := by
      intro p hp
      have := hpr p hp
      rw [hprog p hp, if_neg hone] at this
      exact (Option.some.inj this).symm
    obtain ⟨L, N, hex, hall, hres⟩ := one_round dom.pes.length _ _ _ _ _ progs hpr'
      (fun p hp => ⟨g0, hdn p hp⟩)
    refine ⟨L, fun steps M hM => ?_⟩
    obtain ⟨a, b, c⟩ := Net.outcome hex hall steps M hM
    refine ⟨a, c, fun hd pe hpe => ?_⟩
    rw [b hd]
    refine ⟨_, hres pe hpe, ?_⟩
    intro i j hi1 hi2 hj1 hj2
    have hfold : recvFold (fun _ => true) (storeBlock dom sx sy 1) (fun g _ => g)
        (fun q => m q) (List.range dom.pes.length) g0 =
        store g0 ((List.range dom.pes.length).flatMap
          (fun p => blockWrites dom sx sy 1 p (m p))) := by
      rw [← foldl_store]
      unfold recvFold
      congr 1
      funext g p
      simp [storeBlock_eq]
    rw [hfold]
    have := assembled ni nj xs ys 0 0 dom (by omega) (by omega) hxs hys hdom sx sy hsx hsy 1
      (Or.inr (Nat.le_refl 1)) (fun i j _ => F i j) m hm g0 i j 0 (by omega) (by omega) (by omega)
    rw [← this]
    congr 1
    ring

/-! ### Gather of lists -/

/-- C06 for `mpp_gather_field_int` / `mpp_gather_field_double`: for every interleaving, every
processor ends up with the concatenation, in processor order, of all contributions (some of which
may be empty). -/
theorem C06_gather_all (npes : Nat) (data : Nat → List α) (progs : Nat → Prog (Elt α) (List α))
    (hp : ∀ p, p < npes → progs p = gatherAllProg npes p (data p))
    (hd : ∀ p, npes ≤ p → progs p = .done []) :
    ∃ L, ∀ steps M, Exec false steps (Net.start progs) M →
      steps ≤ L ∧ (¬ M.AllDone → ∃ p M', NStep true p M M') ∧
      (M.AllDone → ∀ pe, pe < npes →
        M.prog pe = .done ((List.range npes).flatMap data)) := by
  have hbne : ∀ a b : Nat, (a != b) = (b != a) := by
    intro a b
    rw [bne, bne, BEq.comm]
  obtain ⟨L, F, hex, hall, hres⟩ := two_rounds npes (fun p q => q != p)
    (fun p _ => ([.inl (data p).length] : List (Elt α)))
    (fun _ rs p m => set1 rs p (asSize m)) (fun _ rs _ => rs) (fun _ _ => 0)
    (fun p q => q != p && decide (0 < (data p).length))
    (fun p _ => ((data p).map .inr : List (Elt α)))
    (fun pe rs q => q != pe && decide (0 < rs q))
    (fun _ out _ m => out ++ asData m) (fun pe out p => if p = pe then out ++ data pe else out)
    (fun _ => []) progs
    (by
      intro p hpn
      rw [hp p hpn]
      unfold gatherAllProg gatherRecv
      have : (fun q => p != q) = (fun q => q != p) := funext (fun q => hbne p q)
      rw [this])
    (by
      intro p q hpn hqn
      simp only [recvFold_sizes]
      by_cases h : q = p
      · subst h; simp
      · have h' : ¬ p = q := fun hh => h hh.symm
        have h1 : (q != p) = true := by simp [h]
        have h2 : (p != q) = true := by simp [h']
        simp [h1, h2, hqn, asSize])
    (fun p hpn => ⟨[], hd p hpn⟩)
  refine ⟨L, fun steps M hM => ?_⟩
  obtain ⟨a, b, c⟩ := Net.outcome hex hall steps M hM
  refine ⟨a, c, fun hdn pe hpe => ?_⟩
  rw [b hdn, hres pe hpe]
  congr 1
  have := recvFold_concat (fun q => q != pe && decide (0 < (recvFold (fun q => pe != q)
      (fun rs p (m : List (Elt α)) => set1 rs p (asSize m)) (fun rs _ => rs)
      (fun q => ([.inl (data q).length] : List (Elt α))) (List.range npes) (fun _ => 0)) q)) pe data
      (List.range npes) [] (by
        intro q hq hne hsel
        simp only [recvFold_sizes] at hsel
        have hqn : q < npes := by simpa using hq
        have h' : ¬ pe = q := fun hh => hne hh.symm
        simp [hne, hqn, asSize] at hsel
        exact hsel h') (by simp)
  simpa using this

/-- C06 for `mpp_gather_field_int_root` / `mpp_gather_field_double_root`: the root ends up with the
concatenation in processor order. -/
theorem C06_gather_root (npes root : Nat) (hroot : root < npes) (data : Nat → List α)
    (progs : Nat → Prog (Elt α) (List α))
    (hp : ∀ p, p < npes → progs p = gatherRootProg npes root p (data p))
    (hd : ∀ p, npes ≤ p → progs p = .done []) :
    ∃ L, ∀ steps M, Exec false steps (Net.start progs) M →
      steps ≤ L ∧ (¬ M.AllDone → ∃ p M', NStep true p M M') ∧
      (M.AllDone → M.prog root = .done ((List.range npes).flatMap data)) := by
  obtain ⟨L, F, hex, hall, hres⟩ := two_rounds npes (fun p q => p != root && q == root)
    (fun p _ => ([.inl (data p).length] : List (Elt α)))
    (fun _ rs p m => set1 rs p (asSize m)) (fun _ rs _ => rs) (fun _ _ => 0)
    (fun p q => p != root && q == root && decide (0 < (data p).length))
    (fun p _ => ((data p).map .inr : List (Elt α)))
    (fun pe rs q => q != root && pe == root && decide (0 < rs q))
    (fun _ out _ m => out ++ asData m)
    (fun pe out p => if pe = root then (if p = pe then out ++ data pe else out) else out)
    (fun _ => []) progs
    (by
      intro p hpn
      rw [hp p hpn]
      unfold gatherRootProg gatherRecv
      by_cases hpr : p = root
      · subst hpr
        rw [sendLoop_none _ _ _ _ (by simp)]
        simp only [if_true, beq_self_eq_true, Bool.and_true, bne_self_eq_false, Bool.false_and]
        congr 1
        funext rs
        rw [sendLoop_none _ _ _ _ (by simp)]
      · rw [sendLoop_single root _ _ _ (by simp [hpr]) _ List.nodup_range (by simpa using hroot)
          (by intro q _ hq; simp [hq])]
        rw [if_neg hpr]
        congr 1
        have h1 := recvLoop_none (fun q => q != root && p == root)
          (fun rs p (m : List (Elt α)) => set1 rs p (asSize m)) (fun rs _ => rs)
          (fun rs => Prog.sync (sendLoop (fun q => p != root && q == root &&
              decide (0 < (data p).length)) (fun _ => ((data p).map .inr : List (Elt α)))
            (recvLoop (fun q => q != root && p == root && decide (0 < rs q))
              (fun out _ m => out ++ asData m)
              (fun out x => if p = root then (if x = p then out ++ data p else out) else out)
              (fun t => Prog.sync (.done t)) (List.range npes) []) (List.range npes)))
          (List.range npes) (fun _ => 0) (by simp [hpr]) (by simp)
        rw [h1]
        congr 1
        have h2 := fun rs : Nat → Nat => recvLoop_none
          (fun q => q != root && p == root && decide (0 < rs q))
          (fun out _ (m : List (Elt α)) => out ++ asData m)
          (fun out x => if p = root then (if x = p then out ++ data p else out) else out)
          (fun t => Prog.sync (.done t)) (List.range npes) [] (by simp [hpr]) (by simp [hpr])
        rw [h2]
        by_cases hl : 0 < (data p).length
        · rw [if_pos hl, sendLoop_single root _ _ _ (by simp [hpr, hl]) _ List.nodup_range
            (by simpa using hroot) (by intro q _ hq; simp [hq])]
        · rw [if_neg hl, sendLoop_none _ _ _ _ (by simp [hl])])
    (by
      intro p q hpn hqn
      simp only [recvFold_sizes]
      by_cases h : q = root
      · subst h; simp
      · by_cases h' : p = root
        · subst h'; simp [h, hqn, asSize]
        · simp [h'])
    (fun p hpn => ⟨[], hd p hpn⟩)
  refine ⟨L, fun steps M hM => ?_⟩
  obtain ⟨a, b, c⟩ := Net.outcome hex hall steps M hM
  refine ⟨a, c, fun hdn => ?_⟩
  rw [b hdn, hres root hroot]
  congr 1
  have := recvFold_concat (fun q => q != root && root == root && decide (0 < (recvFold
      (fun q => q != root && root == root)
      (fun rs p (m : List (Elt α)) => set1 rs p (asSize m)) (fun rs _ => rs)
      (fun q => ([.inl (data q).length] : List (Elt α))) (List.range npes) (fun _ => 0)) q)) root data
      (List.range npes) [] (by
        intro q hq hne hsel
        simp only [recvFold_sizes] at hsel
        have hqn : q < npes := by simpa using hq
        simp [hne, hqn, asSize] at hsel
        exact hsel) (by simp)
  simpa using this

/-! ### What goes wrong -/

/-- C06 fails for corner data on several levels when only one direction is staggered
(mpp_domain.c 622 adds `ishift` to `nyg`). One processor, a 1 x 2 grid, two levels, staggered in y:
the element of level 1, row 0 is not where it belongs, and level 0, row 2 is lost. -/
theorem C06_3d_staggered_wrong :
    ∃ (dom : Domain2D) (l : LocalField Int) (F : Int → Int → Int → Int) (g : Mem Int),
      defineDomain2D 1 2 1 1 0 0 = .ok dom ∧
      HoldsBlock 0 0 0 1 0 0 0 1 2 l.sizex l.sizey l.ldata F ∧
      globalFieldProg dom 2 0 0 l (fun _ => none) = some (.sync (.done g)) ∧
      g ((1 * (2 + 1) + 0) * (1 + 0) + 0) ≠ some (F 0 0 1) ∧
      ∀ a, g a ≠ some (F 0 2 0) := by
  let l : LocalField Int := { sizex := 1, sizey := 3, ldata := fun n => n }
  let F : Int → Int → Int → Int := fun _ j k => 3 * k + j
  refine ⟨⟨[(0, 0, 0, 1)], 1, 2, 0, 0⟩, l, F,
    store (fun _ => none) [(0, some 0), (1, some 1), (2, some 2), (2, some 3), (3, some 4),
      (4, some 5)], rfl, ?_, rfl, by decide, ?_⟩
  · left
    refine ⟨rfl, rfl, ?_⟩
    intro i j k h1 h2 h3 h4 h5 h6
    simp only [l, F]
    omega
  · intro a
    simp only [store, List.foldl, F]
    repeat' split
    all_goals simp

/-- With a halo the assembled array is stored beyond its own end: the last element is written at an
index not below the number of elements. No caller in the repository uses a halo. -/
theorem C06_halo_out_of_bounds (ni nj : Nat) (xhalo yhalo : Int) (hi : 1 ≤ ni) (hj : 1 ≤ nj)
    (hx : 0 ≤ xhalo) (hy : 0 ≤ yhalo) (hpos : 0 < xhalo + yhalo) (dom : Domain2D)
    (hd : defineDomain2D ni nj 1 1 xhalo yhalo = .ok dom) (l : LocalField α)
    (F : Int → Int → Int → α)
    (hold : ∀ (p : Nat) (isc iec jsc jec : Int), dom.pes[p]? = some (isc, iec, jsc, jec) →
      HoldsBlock isc iec jsc jec xhalo yhalo 0 0 1 l.sizex l.sizey l.ldata F) :
    ∃ g, globalFieldProg dom 1 0 0 l (fun _ => none) = some (.sync (.done g)) ∧
      ∃ a : Int, (ni : Int) * nj ≤ a ∧ (g a).isSome := by
  have hlen : dom.pes.length = 1 := by
    obtain ⟨xs, hxe, hxl, _⟩ := C01_extents_partition ni 1 (Nat.le_refl 1) hi
    obtain ⟨ys, hye, hyl, _⟩ := C01_extents_partition nj 1 (Nat.le_refl 1) hj
    unfold defineDomain2D at hd
    rw [hxe, hye] at hd
    rw [← Except.ok.inj hd]
    simp only [length_flatMap_map, hxl, hyl]
  obtain ⟨hsome, hmain⟩ := C06_global_field_levels ni nj 1 1 xhalo yhalo (Nat.le_refl 1) hi (Nat.le_refl 1) hj
    hx hy dom hd 0 0 (Or.inl rfl) (Or.inl rfl) 1 (Or.inl rfl) 0 (by omega) (fun _ => l) F hold
    (fun _ => none)
  obtain ⟨b, hb⟩ : ∃ b, globalFieldProg dom 1 0 0 l (fun _ => none) = some b :=
    Option.isSome_iff_exists.1 (hsome 0 (by omega))
  have hform : ∃ g, b = Prog.sync (.done g) := by
    unfold globalFieldProg at hb
    split at hb
    · cases hb
    · split at hb
      · rw [hlen] at hb
        have := (Option.some.inj hb).symm
        refine ⟨_, this⟩
      · cases hb
  obtain ⟨g, rfl⟩ := hform
  refine ⟨g, hb, ?_⟩
  obtain ⟨L, hL⟩ := hmain (fun p => if p = 0 then .sync (.done g) else .done (fun _ => none))
    (by
      intro p hp
      have : p = 0 := by omega
      subst this
      simpa using hb)
    (by intro p hp; rw [if_neg (by omega)])
  have hex : Exec (α := α) false (0 + 1) (Net.start (fun p => if p = 0 then Prog.sync (.done g)
      else .done (fun _ => none))) ⟨fun p => if p = 0 then .done g else .done (fun _ => none),
      fun _ _ => []⟩ := by
    refine .cons 0 (NStep.sync _ (.done g) (by simp [Net.start]) (by simp)) ?_
    have : (⟨set1 (Net.start (fun p => if p = 0 then Prog.sync (.done g)
      else .done (fun _ => (none : Option α)))).prog 0 (.done g), (Net.start (fun p => if p = 0 then
        Prog.sync (.done g) else .done (fun _ => (none : Option α)))).chan⟩ : Net α (Mem α)) =
        ⟨fun p => if p = 0 then .done g else .done (fun _ => none), fun _ _ => []⟩ := by
      ext1
      · funext p; simp only [set1, Net.start]; split <;> rfl
      · rfl
    rw [this]
    exact .nil _
  obtain ⟨_, _, hfin⟩ := hL _ _ hex
  obtain ⟨g', hg', hval⟩ := hfin (by
    intro p
    by_cases hp : p = 0
    · exact ⟨g, by simp [hp]⟩
    · exact ⟨_, by simp only [hp, if_false]; rfl⟩)
  have : g' = g := by simpa using hg'.symm
  subst this
  refine ⟨_, ?_, Option.isSome_iff_exists.2 ⟨_, hval (xhalo + ni - 1) (yhalo + nj - 1) 0 (by omega)
    (by omega) (by omega) (by omega) (by omega) (by omega)⟩⟩
  have h1 : 0 ≤ yhalo * (ni : Int) := Int.mul_nonneg hy (by omega)
  rcases Int.lt_or_eq_of_le hy with h | h
  · nlinarith
  · subst h; simp only [Int.zero_add, Int.add_zero]; nlinarith

/- Tests: two processors side by side on a 3 x 1 grid; the assembled array does not depend on
anything but the data. -/
example : defineDomain2D 3 1 2 1 0 0 = .ok ⟨[(0, 1, 0, 0), (2, 2, 0, 0)], 3, 1, 0, 0⟩ := rfl
example : HoldsBlock 0 1 0 0 0 0 0 0 1 2 1 (fun n : Int => n) (fun i _ _ => i) := by
  left; refine ⟨rfl, rfl, ?_⟩; intros; simp only; omega
example : HoldsBlock 2 2 0 0 0 0 0 0 1 1 1 (fun n : Int => n + 2) (fun i _ _ => i) := by
  left; refine ⟨rfl, rfl, ?_⟩; intros; simp only; omega

end Verif
