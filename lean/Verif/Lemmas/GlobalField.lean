import Verif.Model.GlobalField
import Verif.Lemmas.Mpp
import Verif.Spec.Field
import Verif.Lemmas.OrdPart
import Mathlib.Tactic.Ring
import Mathlib.Tactic.Linarith
/-
Helper lemmas for the global field and gather routines.
-/
namespace Verif
variable {α β σ : Type}

theorem store_append (g : Mem α) (a b : List (Int × Option α)) :
    store (store g a) b = store g (a ++ b) := by
  simp [store, List.foldl_append]

theorem store_other (g : Mem α) (ws : List (Int × Option α)) (a : Int)
    (h : ∀ w ∈ ws, w.1 ≠ a) : store g ws a = g a := by
  induction ws generalizing g with
  | nil => rfl
  | cons w ws ih =>
    have hw := h w (by simp)
    have : store g (w :: ws) = store (fun x => if x = w.1 then w.2 else g x) ws := rfl
    rw [this, ih _ (fun x hx => h x (by simp [hx]))]
    exact if_neg (fun hh => hw hh.symm)

theorem store_read (ws : List (Int × Option α)) (a : Int) (v : Option α) :
    ∀ g : Mem α, (∀ w ∈ ws, w.1 = a → w.2 = v) → (∃ w ∈ ws, w.1 = a) → store g ws a = v := by
  induction ws with
  | nil => intro g _ h; obtain ⟨w, hw, _⟩ := h; cases hw
  | cons w ws ih =>
    intro g h1 h2
    have hst : store g (w :: ws) = store (fun x => if x = w.1 then w.2 else g x) ws := rfl
    rw [hst]
    by_cases hex : ∃ w' ∈ ws, w'.1 = a
    · exact ih _ (fun x hx => h1 x (by simp [hx])) hex
    · rw [store_other _ _ _ (fun x hx hh => hex ⟨x, hx, hh⟩)]
      obtain ⟨w', hw', he⟩ := h2
      cases hw' with
      | head => simp [he, ← h1 w (by simp) he]
      | tail _ hx => exact absurd ⟨w', hx, he⟩ hex

theorem zipWrites_map {γ : Type} (pos : γ → Int) (F : γ → α) (cs : List γ) :
    zipWrites (cs.map pos) (cs.map F) = cs.map (fun c => (pos c, some (F c))) := by
  induction cs with
  | nil => rfl
  | cons c cs ih => simp [zipWrites, ih]

theorem mem_irange (a b x : Int) : x ∈ irange a b ↔ a ≤ x ∧ x ≤ b := by
  simp only [irange, List.mem_map, List.mem_range]
  constructor
  · rintro ⟨n, hn, rfl⟩; omega
  · rintro ⟨h1, h2⟩; exact ⟨(x - a).toNat, by omega, by omega⟩

theorem mem_cells (is ie js je : Int) (nz : Nat) (c : Int × Int × Int) :
    c ∈ cells is ie js je nz ↔
      (is ≤ c.1 ∧ c.1 ≤ ie) ∧ (js ≤ c.2.1 ∧ c.2.1 ≤ je) ∧ (0 ≤ c.2.2 ∧ c.2.2 < nz) := by
  obtain ⟨i, j, k⟩ := c
  simp only [cells, List.mem_flatMap, List.mem_map, mem_irange, Prod.mk.injEq]
  constructor
  · rintro ⟨k', hk, j', hj, i', hi, rfl, rfl, rfl⟩
    exact ⟨hi, hj, by omega⟩
  · rintro ⟨hi, hj, hk⟩
    exact ⟨k, by omega, j, hj, i, hi, rfl, rfl, rfl⟩

theorem flatMap_congr_mem {γ δ : Type} {f g : γ → List δ} {l : List γ}
    (h : ∀ x ∈ l, f x = g x) : l.flatMap f = l.flatMap g := by
  induction l with
  | nil => rfl
  | cons a l ih =>
    rw [List.flatMap_cons, List.flatMap_cons, h a (by simp), ih (fun x hx => h x (by simp [hx]))]

theorem range_mul_map (f : Nat → α) (a b : Nat) :
    (List.range (a * b)).map f =
      (List.range a).flatMap (fun x => (List.range b).map (fun y => f (x * b + y))) := by
  induction a with
  | zero => simp
  | succ a ih =>
    rw [Nat.add_mul, Nat.one_mul, List.range_add, List.map_append, ih, List.range_succ,
      List.flatMap_append]
    simp [List.flatMap_singleton, Function.comp_def]

/-- Reading a contiguous array in order is reading it cell by cell. -/
theorem range_eq_cells (is js w h : Int) (nz : Nat) (hw : 0 ≤ w) (hh : 0 ≤ h) (f : Int → α) :
    (List.range (w * h * nz).toNat).map (fun n : Nat => f n) =
      (cells is (is + w - 1) js (js + h - 1) nz).map
        (fun c => f (c.2.2 * w * h + (c.2.1 - js) * w + (c.1 - is))) := by
  obtain ⟨w, rfl⟩ := Int.eq_ofNat_of_zero_le hw
  obtain ⟨h, rfl⟩ := Int.eq_ofNat_of_zero_le hh
  have e1 : ((w : Int) * h * nz).toNat = nz * (h * w) := by
    have : ((w : Int) * h * nz) = ((nz * (h * w) : Nat) : Int) := by push_cast; ring
    rw [this, Int.toNat_natCast]
  have e2 : (is + (w : Int) - 1 + 1 - is).toNat = w := by omega
  have e3 : (js + (h : Int) - 1 + 1 - js).toNat = h := by omega
  have e4 : ((nz : Int) - 1 + 1 - 0).toNat = nz := by omega
  rw [e1, range_mul_map]
  simp only [cells, irange, e2, e3, e4, List.map_flatMap, List.flatMap_map, List.map_map,
    Function.comp_def]
  apply flatMap_congr_mem
  intro x _
  rw [range_mul_map (fun y => f ((x * (h * w) + y : Nat) : Int))]
  apply flatMap_congr_mem
  intro y _
  apply List.map_congr_left
  intro z _
  congr 1
  push_cast
  ring

/-- The block writes of one processor. -/
def blockWrites (dom : Domain2D) (ishift jshift : Int) (nz : Nat) (p : Nat) (m : List α) :
    List (Int × Option α) :=
  match dom.pes[p]? with
  | none => []
  | some b => zipWrites (blockAddrs dom ishift jshift nz b) m

theorem storeBlock_eq (dom : Domain2D) (ishift jshift : Int) (nz : Nat) (g : Mem α) (p : Nat)
    (m : List α) :
    storeBlock dom ishift jshift nz g p m = store g (blockWrites dom ishift jshift nz p m) := by
  unfold storeBlock blockWrites
  cases dom.pes[p]? <;> rfl

theorem foldl_store (W : Nat → List (Int × Option α)) (ps : List Nat) (g : Mem α) :
    ps.foldl (fun g p => store g (W p)) g = store g (ps.flatMap W) := by
  induction ps generalizing g with
  | nil => rfl
  | cons p ps ih => simp only [List.foldl_cons, List.flatMap_cons, ih, store_append]

/-- The row-major index map is injective on a box. -/
theorem rowMajor_inj (w o a a' i i' : Int) (hi : o ≤ i ∧ i < o + w) (hi' : o ≤ i' ∧ i' < o + w)
    (h : a * w + i = a' * w + i') : a = a' ∧ i = i' := by
  have hw : 0 < w := by omega
  rcases Int.lt_trichotomy a a' with hlt | heq | hgt
  · nlinarith
  · subst heq; exact ⟨rfl, by omega⟩
  · nlinarith

end Verif

namespace Verif
open Spec
variable {α β σ : Type}

theorem sendLoop_none (sel : Nat → Bool) (m : Nat → List α) (k : Prog α β) :
    ∀ ps : List Nat, (∀ q ∈ ps, sel q = false) → sendLoop sel m k ps = k := by
  intro ps
  induction ps with
  | nil => intro _; rfl
  | cons p ps ih =>
    intro h
    simp only [sendLoop, h p (by simp), Bool.false_eq_true, if_false]
    exact ih (fun q hq => h q (by simp [hq]))

theorem sendLoop_single (r : Nat) (sel : Nat → Bool) (m : Nat → List α) (k : Prog α β)
    (hr : sel r = true) :
    ∀ ps : List Nat, ps.Nodup → r ∈ ps → (∀ q ∈ ps, q ≠ r → sel q = false) →
      sendLoop sel m k ps = .send r (m r) k := by
  intro ps
  induction ps with
  | nil => intro _ h; cases h
  | cons p ps ih =>
    intro hnd hm hs
    obtain ⟨hp, hnd'⟩ := List.nodup_cons.1 hnd
    by_cases hpr : p = r
    · subst hpr
      simp only [sendLoop, hr, if_true]
      rw [sendLoop_none]
      intro q hq
      exact hs q (by simp [hq]) (fun h => hp (h ▸ hq))
    · simp only [sendLoop, hs p (by simp) hpr, Bool.false_eq_true, if_false]
      refine ih hnd' ?_ (fun q hq => hs q (by simp [hq]))
      cases hm with
      | head => exact absurd rfl hpr
      | tail _ h => exact h

theorem recvLoop_none (sel : Nat → Bool) (use : σ → Nat → List α → σ) (loc : σ → Nat → σ)
    (k : σ → Prog α β) : ∀ (ps : List Nat) (s : σ), (∀ q ∈ ps, sel q = false) →
      (∀ s q, loc s q = s) → recvLoop sel use loc k ps s = k s := by
  intro ps
  induction ps with
  | nil => intro s _ _; rfl
  | cons p ps ih =>
    intro s h hl
    simp only [recvLoop, h p (by simp), Bool.false_eq_true, if_false, hl]
    exact ih s (fun q hq => h q (by simp [hq])) hl

/-- `phase_send` in terms of facts about the next state. -/
theorem phase_send' (n : Nat) (sel : Nat → Nat → Bool) (m : Nat → Nat → List α)
    (k : Nat → Prog α β) (N : Net α β)
    (hp : ∀ p, p < n → N.prog p = sendLoop (sel p) (m p) (k p) (List.range n))
    (hc : ∀ x y, N.chan x y = []) :
    ∃ N' l, Exec true l N N' ∧ (∀ p, p < n → N'.prog p = k p) ∧
      (∀ p, n ≤ p → N'.prog p = N.prog p) ∧
      ∀ x y, N'.chan x y = if x < n ∧ y < n ∧ sel x y = true then [m x y] else [] := by
  obtain ⟨l, h⟩ := phase_send n sel m k N hp hc
  exact ⟨_, l, h, fun p hp => by simp [hp], fun p hp => by simp [show ¬ p < n by omega],
    fun x y => rfl⟩

/-- `phase_recv` in terms of facts about the next state. -/
theorem phase_recv' (n : Nat) (sel : Nat → Nat → Bool) (use : Nat → σ → Nat → List α → σ)
    (loc : Nat → σ → Nat → σ) (k : Nat → σ → Prog α β) (s0 : Nat → σ) (m : Nat → Nat → List α)
    (N : Net α β)
    (hp : ∀ p, p < n → N.prog p = recvLoop (sel p) (use p) (loc p) (k p) (List.range n) (s0 p))
    (hc : ∀ x y, N.chan x y = if x < n ∧ y < n ∧ sel y x = true then [m x y] else []) :
    ∃ N' l, Exec true l N N' ∧ (∀ p, p < n → N'.prog p =
        k p (recvFold (sel p) (use p) (loc p) (fun q => m q p) (List.range n) (s0 p))) ∧
      (∀ p, n ≤ p → N'.prog p = N.prog p) ∧ ∀ x y, N'.chan x y = [] := by
  obtain ⟨l, h⟩ := phase_recv n sel use loc k s0 m N hp hc
  exact ⟨_, l, h, fun p hp => by simp [hp], fun p hp => by simp [show ¬ p < n by omega],
    fun x y => rfl⟩

/-- `phase_sync` in terms of facts about the next state. -/
theorem phase_sync' (n : Nat) (k : Nat → Prog α β) (N : Net α β)
    (hp : ∀ p, p < n → N.prog p = .sync (k p)) (hc : ∀ x y, N.chan x y = []) :
    ∃ N' l, Exec true l N N' ∧ (∀ p, p < n → N'.prog p = k p) ∧
      (∀ p, n ≤ p → N'.prog p = N.prog p) ∧ ∀ x y, N'.chan x y = [] := by
  obtain ⟨l, h⟩ := phase_sync n k N hp hc
  exact ⟨_, l, h, fun p hp => by simp [hp], fun p hp => by simp [show ¬ p < n by omega],
    fun x y => hc x y⟩

/-- One exchange: everybody sends, everybody receives, everybody waits. -/
theorem one_round (n : Nat) (sel : Nat → Nat → Bool) (m : Nat → Nat → List α)
    (use : Nat → σ → Nat → List α → σ) (loc : Nat → σ → Nat → σ) (s0 : Nat → σ)
    (progs : Nat → Prog α σ)
    (hp : ∀ p, p < n → progs p = sendLoop (sel p) (m p)
      (recvLoop (fun q => sel q p) (use p) (loc p) (fun s => .sync (.done s)) (List.range n) (s0 p))
      (List.range n))
    (hd : ∀ p, n ≤ p → ∃ b, progs p = .done b) :
    ∃ L F, Exec true L (Net.start progs) F ∧ F.AllDone ∧ ∀ p, p < n → F.prog p =
      .done (recvFold (fun q => sel q p) (use p) (loc p) (fun q => m q p) (List.range n) (s0 p)) := by
  obtain ⟨N1, l1, h1, hp1, ho1, hc1⟩ := phase_send' n sel m _ (Net.start progs) hp (fun _ _ => rfl)
  obtain ⟨N2, l2, h2, hp2, ho2, hc2⟩ := phase_recv' n (fun p q => sel q p) use loc
    (fun _ s => .sync (.done s)) s0 m N1 hp1 hc1
  obtain ⟨N3, l3, h3, hp3, ho3, _⟩ := phase_sync' n (fun p => .done
    (recvFold (fun q => sel q p) (use p) (loc p) (fun q => m q p) (List.range n) (s0 p)))
    N2 hp2 hc2
  refine ⟨_, N3, (h1.append h2).append h3, ?_, hp3⟩
  intro p
  by_cases hpn : p < n
  · exact ⟨_, hp3 p hpn⟩
  · obtain ⟨b, hb⟩ := hd p (by omega)
    refine ⟨b, ?_⟩
    rw [ho3 p (by omega), ho2 p (by omega), ho1 p (by omega)]
    exact hb

theorem getShift_of_holds (d : OwnDomain) (l : LocalField α) (sx sy : Int) (nz : Nat)
    (F : Int → Int → Int → α) (hx : 0 ≤ d.xhalo) (hy : 0 ≤ d.yhalo)
    (hsx : sx = 0 ∨ sx = 1) (hsy : sy = 0 ∨ sy = 1)
    (h : HoldsBlock d.isc d.iec d.jsc d.jec d.xhalo d.yhalo sx sy nz l.sizex l.sizey l.ldata F) :
    getShift d l.sizex l.sizey = some (sx, sy) := by
  have hsz : (l.sizex = d.nxc + sx ∧ l.sizey = d.nyc + sy) ∨
      (l.sizex = d.nxd + sx ∧ l.sizey = d.nyd + sy) := by
    rcases h with ⟨a, b, _⟩ | ⟨a, b, _⟩
    · left; simp only [OwnDomain.nxc, OwnDomain.nyc]; omega
    · right; simp only [OwnDomain.nxd, OwnDomain.nyd, OwnDomain.isd, OwnDomain.jsd]; omega
  have e1 : d.nxd = d.nxc + 2 * d.xhalo := by
    simp only [OwnDomain.nxd, OwnDomain.nxc, OwnDomain.isd]; omega
  have e2 : d.nyd = d.nyc + 2 * d.yhalo := by
    simp only [OwnDomain.nyd, OwnDomain.nyc, OwnDomain.jsd]; omega
  unfold getShift
  rw [e1, e2] at hsz ⊢
  rcases hsx with rfl | rfl <;> rcases hsy with rfl | rfl
  · rw [if_pos (by omega)]
  · rw [if_neg (by omega), if_neg (by omega), if_pos (by omega)]
  · rw [if_neg (by omega), if_pos (by omega)]
  · rw [if_neg (by omega), if_neg (by omega), if_neg (by omega), if_pos (by omega)]

theorem packLocal_of_holds (d : OwnDomain) (l : LocalField α) (sx sy : Int) (nz : Nat)
    (F : Int → Int → Int → α) (hx : 0 ≤ d.xhalo) (hy : 0 ≤ d.yhalo)
    (hi : d.isc ≤ d.iec) (hj : d.jsc ≤ d.jec)
    (hsx : sx = 0 ∨ sx = 1) (hsy : sy = 0 ∨ sy = 1)
    (h : HoldsBlock d.isc d.iec d.jsc d.jec d.xhalo d.yhalo sx sy nz l.sizex l.sizey l.ldata F) :
    packLocal d l nz = some ((cells d.isc (d.iec + sx) d.jsc (d.jec + sy) nz).map
      (fun c => F c.1 c.2.1 c.2.2)) := by
  unfold packLocal
  rw [getShift_of_holds d l sx sy nz F hx hy hsx hsy h]
  have e1 : d.nxd = d.nxc + 2 * d.xhalo := by
    simp only [OwnDomain.nxd, OwnDomain.nxc, OwnDomain.isd]; omega
  have e2 : d.nyd = d.nyc + 2 * d.yhalo := by
    simp only [OwnDomain.nyd, OwnDomain.nyc, OwnDomain.jsd]; omega
  have a1 : d.nxc = d.iec - d.isc + 1 := rfl
  have a2 : d.nyc = d.jec - d.jsc + 1 := rfl
  simp only []
  rcases h with ⟨a, b, hF⟩ | ⟨a, b, hF⟩
  · rw [if_pos (by omega)]
    rw [range_eq_cells d.isc d.jsc l.sizex l.sizey nz (by omega) (by omega) l.ldata]
    rw [show d.isc + l.sizex - 1 = d.iec + sx by omega, show d.jsc + l.sizey - 1 = d.jec + sy by omega]
    congr 1
    apply List.map_congr_left
    intro c hc
    rw [mem_cells] at hc
    exact hF _ _ _ hc.1.1 hc.1.2 hc.2.1.1 hc.2.1.2 hc.2.2.1 hc.2.2.2
  · by_cases h0 : l.sizex = d.nxc + sx ∧ l.sizey = d.nyc + sy
    · rw [if_pos h0]
      have hx0 : d.xhalo = 0 := by omega
      have hy0 : d.yhalo = 0 := by omega
      rw [range_eq_cells d.isc d.jsc l.sizex l.sizey nz (by omega) (by omega) l.ldata]
      rw [show d.isc + l.sizex - 1 = d.iec + sx by omega,
        show d.jsc + l.sizey - 1 = d.jec + sy by omega]
      congr 1
      apply List.map_congr_left
      intro c hc
      rw [mem_cells] at hc
      have := hF _ _ _ hc.1.1 hc.1.2 hc.2.1.1 hc.2.1.2 hc.2.2.1 hc.2.2.2
      rw [hx0, hy0, Int.sub_zero, Int.sub_zero] at this
      exact this
    · rw [if_neg h0, if_pos (by omega)]
      congr 1
      apply List.map_congr_left
      intro c hc
      rw [mem_cells] at hc
      have := hF _ _ _ hc.1.1 hc.1.2 hc.2.1.1 hc.2.1.2 hc.2.2.1 hc.2.2.2
      rw [show d.nxd + sx = l.sizex by omega, show d.nyd + sy = l.sizey by omega]
      exact this

end Verif

namespace Verif
open Spec
variable {α : Type}

theorem cover_staggered {n : Nat} {ext : List (Int × Int)} (hp : OrderedPartition 0 (n - 1) ext)
    (hn : 1 ≤ n) (s : Int) (hs : s = 0 ∨ s = 1) (i : Int) (h0 : 0 ≤ i) (h1 : i < n + s) :
    ∃ x ∈ ext, x.1 ≤ i ∧ i ≤ x.2 + s := by
  by_cases hi : i < n
  · obtain ⟨k, x, hk, a, b⟩ := hp.cover i h0 (by omega)
    exact ⟨x, List.mem_of_getElem? hk, a, by omega⟩
  · obtain ⟨k, x, hk, a, b⟩ := hp.cover ((n : Int) - 1) (by omega) (by omega)
    exact ⟨x, List.mem_of_getElem? hk, by omega, by omega⟩

/-- All blocks stored: the global array is the field. -/
theorem assembled (ni nj : Nat) (xs ys : List (Int × Int)) (xhalo yhalo : Int) (dom : Domain2D)
    (hni : 1 ≤ ni) (hnj : 1 ≤ nj)
    (hxs : OrderedPartition 0 (ni - 1) xs) (hys : OrderedPartition 0 (nj - 1) ys)
    (hdom : dom = Domain2D.mk (ys.flatMap (fun y => xs.map (fun x =>
        (x.1 + xhalo, x.2 + xhalo, y.1 + yhalo, y.2 + yhalo)))) ni nj xhalo yhalo)
    (sx sy : Int) (hsx : sx = 0 ∨ sx = 1) (hsy : sy = 0 ∨ sy = 1) (nz : Nat)
    (hlev : sx = sy ∨ nz ≤ 1) (F : Int → Int → Int → α) (m : Nat → List α)
    (hm : ∀ p b, dom.pes[p]? = some b →
      m p = (cells b.1 (b.2.1 + sx) b.2.2.1 (b.2.2.2 + sy) nz).map (fun c => F c.1 c.2.1 c.2.2))
    (g0 : Mem α) (i j k : Int) (hi : xhalo ≤ i ∧ i < xhalo + ni + sx)
    (hj : yhalo ≤ j ∧ j < yhalo + nj + sy) (hk : 0 ≤ k ∧ k < nz) :
    store g0 ((List.range dom.pes.length).flatMap (fun p => blockWrites dom sx sy nz p (m p)))
      ((k * (nj + sy) + j) * (ni + sx) + i) = some (F i j k) := by
  have hnx : dom.nxg = ni := by rw [hdom]
  have hny : dom.nyg = nj := by rw [hdom]
  have haddr : ∀ i j k : Int, 0 ≤ k → k < nz →
      k * (dom.nxg + sx) * (dom.nyg + sx) + j * (dom.nxg + sx) + i =
        (k * (nj + sy) + j) * (ni + sx) + i := by
    intro i j k h0 h1
    rw [hnx, hny]
    rcases hlev with h | h
    · subst h; ring
    · have : k = 0 := by omega
      subst this; ring
  have hW : ∀ p b, dom.pes[p]? = some b → blockWrites dom sx sy nz p (m p) =
      (cells b.1 (b.2.1 + sx) b.2.2.1 (b.2.2.2 + sy) nz).map (fun c =>
        (c.2.2 * (dom.nxg + sx) * (dom.nyg + sx) + c.2.1 * (dom.nxg + sx) + c.1,
          some (F c.1 c.2.1 c.2.2))) := by
    intro p b hb
    unfold blockWrites
    rw [hb]
    simp only [blockAddrs]
    rw [hm p b hb, zipWrites_map]
  apply store_read
  · intro w hw he
    simp only [List.mem_flatMap, List.mem_range] at hw
    obtain ⟨p, hp, hw⟩ := hw
    obtain ⟨b, hb⟩ : ∃ b, dom.pes[p]? = some b := ⟨_, List.getElem?_eq_getElem hp⟩
    rw [hW p b hb, List.mem_map] at hw
    obtain ⟨c, hc, rfl⟩ := hw
    rw [mem_cells] at hc
    have hbm := List.mem_of_getElem? hb
    rw [hdom] at hbm
    simp only [List.mem_flatMap, List.mem_map] at hbm
    obtain ⟨y, hy, x, hx, rfl⟩ := hbm
    have bx := hxs.bounds x hx
    have by' := hys.bounds y hy
    simp only at he hc
    rw [haddr _ _ _ hc.2.2.1 hc.2.2.2] at he
    obtain ⟨h1, h2⟩ := rowMajor_inj (ni + sx) xhalo _ _ _ _ (by omega) (by omega) he
    obtain ⟨h3, h4⟩ := rowMajor_inj (nj + sy) yhalo _ _ _ _ (by omega) (by omega) h1
    simp only
    rw [h2, h3, h4]
  · obtain ⟨x, hx, hx1, hx2⟩ := cover_staggered hxs hni sx hsx (i - xhalo) (by omega) (by omega)
    obtain ⟨y, hy, hy1, hy2⟩ := cover_staggered hys hnj sy hsy (j - yhalo) (by omega) (by omega)
    have hbm : (x.1 + xhalo, x.2 + xhalo, y.1 + yhalo, y.2 + yhalo) ∈ dom.pes := by
      rw [hdom]
      simp only [List.mem_flatMap, List.mem_map]
      exact ⟨y, hy, x, hx, rfl⟩
    obtain ⟨p, hp⟩ := List.mem_iff_getElem?.1 hbm
    have hpl := (List.getElem?_eq_some_iff.1 hp).1
    refine ⟨(k * (dom.nxg + sx) * (dom.nyg + sx) + j * (dom.nxg + sx) + i, some (F i j k)), ?_,
      haddr i j k hk.1 hk.2⟩
    simp only [List.mem_flatMap, List.mem_range]
    refine ⟨p, hpl, ?_⟩
    rw [hW p _ hp, List.mem_map]
    refine ⟨(i, j, k), ?_, rfl⟩
    rw [mem_cells]
    simp only
    omega

end Verif

namespace Verif
variable {α σ τ : Type}

/-- Two exchanges in a row, the second depending on what was received in the first. -/
theorem two_rounds (n : Nat) (selA : Nat → Nat → Bool) (mA : Nat → Nat → List α)
    (useA : Nat → σ → Nat → List α → σ) (locA : Nat → σ → Nat → σ) (s0 : Nat → σ)
    (selB : Nat → Nat → Bool) (mB : Nat → Nat → List α) (selB' : Nat → σ → Nat → Bool)
    (useB : Nat → τ → Nat → List α → τ) (locB : Nat → τ → Nat → τ) (t0 : Nat → τ)
    (progs : Nat → Prog α τ)
    (hp : ∀ p, p < n → progs p = sendLoop (selA p) (mA p)
      (recvLoop (fun q => selA q p) (useA p) (locA p) (fun s => .sync
        (sendLoop (selB p) (mB p)
          (recvLoop (selB' p s) (useB p) (locB p) (fun t => .sync (.done t)) (List.range n) (t0 p))
          (List.range n))) (List.range n) (s0 p)) (List.range n))
    (hsel : ∀ p q, p < n → q < n → selB' p (recvFold (fun q => selA q p) (useA p) (locA p)
      (fun q => mA q p) (List.range n) (s0 p)) q = selB q p)
    (hd : ∀ p, n ≤ p → ∃ b, progs p = .done b) :
    ∃ L F, Exec true L (Net.start progs) F ∧ F.AllDone ∧ ∀ p, p < n → F.prog p =
      .done (recvFold (selB' p (recvFold (fun q => selA q p) (useA p) (locA p)
        (fun q => mA q p) (List.range n) (s0 p))) (useB p) (locB p) (fun q => mB q p)
        (List.range n) (t0 p)) := by
  obtain ⟨N1, l1, h1, hp1, ho1, hc1⟩ := phase_send' n selA mA _ (Net.start progs) hp
    (fun _ _ => rfl)
  obtain ⟨N2, l2, h2, hp2, ho2, hc2⟩ := phase_recv' n (fun p q => selA q p) useA locA
    _ s0 mA N1 hp1 hc1
  obtain ⟨N3, l3, h3, hp3, ho3, hc3⟩ := phase_sync' n _ N2 hp2 hc2
  obtain ⟨N4, l4, h4, hp4, ho4, hc4⟩ := phase_send' n selB mB _ N3 hp3 hc3
  obtain ⟨N5, l5, h5, hp5, ho5, hc5⟩ := phase_recv' n (fun p => selB' p (recvFold
      (fun q => selA q p) (useA p) (locA p) (fun q => mA q p) (List.range n) (s0 p))) useB locB
    (fun _ t => .sync (.done t)) t0 mB N4 hp4 (by
      intro x y
      rw [hc4]
      by_cases hx : x < n
      · by_cases hy : y < n
        · rw [hsel y x hy hx]
        · simp [hy]
      · simp [hx])
  obtain ⟨N6, l6, h6, hp6, ho6, _⟩ := phase_sync' n _ N5 hp5 hc5
  refine ⟨_, N6, ((((h1.append h2).append h3).append h4).append h5).append h6, ?_, hp6⟩
  intro p
  by_cases hpn : p < n
  · exact ⟨_, hp6 p hpn⟩
  · obtain ⟨b, hb⟩ := hd p (by omega)
    refine ⟨b, ?_⟩
    rw [ho6 p (by omega), ho5 p (by omega), ho4 p (by omega), ho3 p (by omega), ho2 p (by omega),
      ho1 p (by omega)]
    exact hb

theorem recvFold_sizes (sel : Nat → Bool) (m : Nat → List (Elt α)) (q : Nat) :
    ∀ (ps : List Nat) (s : Nat → Nat),
      recvFold sel (fun rs p m => set1 rs p (asSize m)) (fun rs _ => rs) m ps s q =
        if q ∈ ps ∧ sel q = true then asSize (m q) else s q := by
  intro ps
  induction ps with
  | nil => intro s; simp [recvFold]
  | cons p ps ih =>
    intro s
    have : recvFold sel (fun rs p m => set1 rs p (asSize m)) (fun rs _ => rs) m (p :: ps) s =
      recvFold sel (fun rs p m => set1 rs p (asSize m)) (fun rs _ => rs) m ps
        (if sel p = true then set1 s p (asSize (m p)) else s) := rfl
    rw [this, ih]
    by_cases h1 : q ∈ ps ∧ sel q = true
    · simp [h1]
    · rw [if_neg h1]
      by_cases h2 : q = p
      · subst h2
        by_cases h3 : sel q = true
        · simp [h3]
        · simp [h3]
      · by_cases h3 : sel p = true
        · rw [if_pos h3, set1_ne _ _ _ _ h2, if_neg]
          simp only [List.mem_cons, h2, false_or]; exact h1
        · rw [if_neg h3, if_neg]
          simp only [List.mem_cons, h2, false_or]; exact h1

theorem asData_map (l : List α) : asData (l.map Sum.inr : List (Elt α)) = l := by
  simp only [asData, List.filterMap_map, Function.comp_def, List.filterMap_some]

theorem recvFold_concat (sel : Nat → Bool) (me : Nat) (data : Nat → List α) :
    ∀ (ps : List Nat) (out : List α),
      (∀ q ∈ ps, q ≠ me → sel q = false → data q = []) → (sel me = false) →
      recvFold sel (fun out _ m => out ++ asData m)
        (fun out p => if p = me then out ++ data me else out)
        (fun q => ((data q).map Sum.inr : List (Elt α))) ps out = out ++ ps.flatMap data := by
  intro ps
  induction ps with
  | nil => intro out _ _; simp [recvFold]
  | cons p ps ih =>
    intro out h hme
    have ih' := fun o => ih o (fun q hq => h q (by simp [hq])) hme
    have hstep : recvFold sel (fun out _ m => out ++ asData m)
        (fun out p => if p = me then out ++ data me else out)
        (fun q => ((data q).map Sum.inr : List (Elt α))) (p :: ps) out =
      recvFold sel (fun out _ m => out ++ asData m)
        (fun out p => if p = me then out ++ data me else out)
        (fun q => ((data q).map Sum.inr : List (Elt α))) ps
        (if sel p = true then out ++ asData ((data p).map Sum.inr) else
          if p = me then out ++ data me else out) := rfl
    rw [hstep, ih', asData_map]
    by_cases h1 : p = me
    · subst h1; simp [hme]
    · by_cases h2 : sel p = true
      · simp [h2]
      · have := h p (by simp) h1 (by simpa using h2)
        simp [h1, h2, this]

end Verif
