import Verif.Spec.GpuConserve
import Mathlib.Tactic.Ring
import Mathlib.Data.List.Perm.Basic
/-
Helper lemmas for the remapping by fregrid_gpu.
-/
namespace Verif.GpuConserve
open Verif.Conserve Verif.Spec

variable {K : Type} [Field K] [LinearOrder K]

theorem addAt_comm (a : Nat → K) (k l : Nat) (v w : K) :
    addAt (addAt a k v) l w = addAt (addAt a l w) k v := by
  funext n
  unfold addAt
  by_cases h1 : n = k <;> by_cases h2 : n = l <;> simp only [h1, h2, if_true, if_false] <;>
    first
      | (split <;> ring)
      | ring
      | rfl

theorem apply_comm (a : Acc K) (p q : Op K) : apply (apply a p) q = apply (apply a q) p := by
  cases p <;> cases q <;> simp only [apply, addAt_comm]
  rename_i k l
  congr 1
  funext n
  by_cases h1 : n = k <;> by_cases h2 : n = l <;> simp [h1, h2]

instance : RightCommutative (apply : Acc K → Op K → Acc K) := ⟨apply_comm⟩

theorem exec_perm {l l' : List (Op K)} (h : l.Perm l') : exec l = exec l' :=
  h.foldl_eq _

variable (cf : Conf K) (s : Src K)

theorem areaWeight_eq (c : XCell K) : c.area * areaWeight cf c.t1 (n1 cf c) = xArea cf c := by
  unfold areaWeight xArea
  cases cf.weight <;> cases cf.sum <;> cases cf.measures <;> simp <;> ring

theorem field_eq (c : XCell K) (h : c.i1 < cf.nx1 c.t1) : field cf s (gcell cf c) = srcVal cf s c := by
  unfold field srcVal gcell
  dsimp only
  have hp : 0 < cf.nx1 c.t1 := by omega
  have h1 : n1 cf c / cf.nx1 c.t1 = c.j1 := by
    unfold n1
    rw [Nat.mul_comm, Nat.mul_add_div hp, Nat.div_eq_of_lt h, Nat.add_zero]
  have h2 : n1 cf c % cf.nx1 c.t1 = c.i1 := by
    unfold n1
    rw [Nat.mul_comm, Nat.mul_add_mod, Nat.mod_eq_of_lt h]
  rw [h1, h2]
  rfl

theorem value_eq (c : XCell K) (h : c.i1 < cf.nx1 c.t1)
    (hm : cf.hasMissing = false → s.gradMask c.t1 (n1 cf c) = false) : value cf s (gcell cf c) = xVal cf s c := by
  unfold value xVal
  rw [field_eq cf s c h]
  cases ho : cf.order2
  · simp
  · simp only [if_true]
    show srcVal cf s c + (1 - (if s.gradMask c.t1 (n1 cf c) then 1 else 0)) * _ = _
    cases hh : cf.hasMissing
    · rw [hm hh]
      simp [gcell]
      ring
    · cases s.gradMask c.t1 (n1 cf c) <;> simp [gcell]
      ring

theorem ops_step (a : Acc K) (c : XCell K) (h : c.i1 < cf.nx1 c.t1)
    (hd : cf.hasMissing = false → srcVal cf s c ≠ cf.missing)
    (hm : cf.hasMissing = false → s.gradMask c.t1 (n1 cf c) = false) :
    (ops cf s (gcell cf c)).foldl apply a = step cf s a c := by
  unfold ops step
  rw [field_eq cf s c h, value_eq cf s c h hm]
  by_cases hv : srcVal cf s c = cf.missing
  · rw [if_pos hv]
    have : used cf s c = false := by
      unfold used
      cases hh : cf.hasMissing
      · exact absurd hv (hd hh)
      · simp [hv]
    rw [this]
    rfl
  · rw [if_neg hv]
    have : used cf s c = true := by
      unfold used
      simp [hv]
    rw [this, if_pos rfl]
    have ha := areaWeight_eq cf c
    simp only [List.foldl_cons, List.foldl_nil, apply]
    show Acc.mk (addAt a.data (n0 cf c) (xVal cf s c * (c.area * areaWeight cf c.t1 (n1 cf c))))
      (addAt a.area (n0 cf c) (c.area * areaWeight cf c.t1 (n1 cf c))) _ = _
    rw [ha]
    rfl

theorem exec_ops (cells : List (XCell K)) (hp : Plain cf s cells) :
    exec ((cells.map (gcell cf)).flatMap (ops cf s)) = accumulate cf s cells := by
  unfold exec accumulate
  generalize (⟨fun _ => 0, fun _ => 0, fun _ => false⟩ : Acc K) = a
  have : ∀ l : List (XCell K), (∀ c ∈ l, c ∈ cells) → ∀ a : Acc K,
      ((l.map (gcell cf)).flatMap (ops cf s)).foldl apply a = l.foldl (step cf s) a := by
    intro l
    induction l with
    | nil => intro _ a; rfl
    | cons c l ih =>
      intro hl a
      rw [List.map_cons, List.flatMap_cons, List.foldl_append, List.foldl_cons,
        ops_step cf s a c (hp.inside c (hl c (by simp))) (fun h => hp.data h c (hl c (by simp)))
          (fun h => hp.mask h c (hl c (by simp)))]
      exact ih (fun c hc => hl c (by simp [hc])) _
  exact this cells (fun _ h => h) a

theorem step_comm (a : Acc K) (c d : XCell K) : step cf s (step cf s a c) d = step cf s (step cf s a d) c := by
  have key : ∀ (b : Acc K) (x : XCell K), step cf s b x =
      (if used cf s x then [Op.data (n0 cf x) (xVal cf s x * xArea cf x), Op.area (n0 cf x) (xArea cf x),
        Op.miss (n0 cf x)] else []).foldl apply b := by
    intro b x
    unfold step
    cases used cf s x <;> rfl
  rw [key, key, key, key, ← List.foldl_append, ← List.foldl_append]
  exact List.Perm.foldl_eq List.perm_append_comm _

theorem accumulate_perm {l l' : List (XCell K)} (h : l.Perm l') : accumulate cf s l = accumulate cf s l' := by
  haveI : RightCommutative (step cf s) := ⟨step_comm cf s⟩
  exact h.foldl_eq _

/-- What the CPU version adds to the target area. -/
def tAdd (c : XCell K) : K :=
  match cf.measures with
  | some m => c.area * m c.t1 (n1 cf c) / cf.cellArea c.t1 (n1 cf c)
  | none => c.area

theorem addend_eq (c : XCell K) : addend cf (gcell cf c) = tAdd cf c := rfl

theorem targetArea_eq (cells : List (XCell K)) :
    targetArea cf cells = cells.foldl (fun a c => addAt a (n0 cf c) (tAdd cf c)) (fun _ => 0) := rfl

theorem targetArea_perm {l l' : List (XCell K)} (h : l.Perm l') : targetArea cf l = targetArea cf l' := by
  rw [targetArea_eq, targetArea_eq]
  haveI : RightCommutative (fun (a : Nat → K) (c : XCell K) => addAt a (n0 cf c) (tAdd cf c)) :=
    ⟨fun a c d => addAt_comm a _ _ _ _⟩
  exact h.foldl_eq _

/-- Two steps of an iteration that has not started are its update. -/
theorem raceStep_two (cells : List (GCell K)) (r : Race K) (ix : Nat) (c : GCell K) (hc : cells[ix]? = some c)
    (hr : r.reg ix = none) :
    ∃ g, raceStep cf cells (raceStep cf cells r ix) ix = ⟨addAt r.area c.ij2 (addend cf c), g⟩ ∧
      ∀ k, k ≠ ix → g k = r.reg k := by
  refine ⟨fun n => if n = ix then some none else if n = ix then some (some (r.area c.ij2)) else r.reg n, ?_, ?_⟩
  · have h1 : raceStep cf cells r ix =
        { r with reg := fun n => if n = ix then some (some (r.area c.ij2)) else r.reg n } := by
      unfold raceStep
      rw [hc]
      dsimp only
      rw [hr]
    rw [h1]
    unfold raceStep
    rw [hc]
    simp only [if_true]
    congr 1
    funext n
    unfold addAt
    by_cases h : n = c.ij2
    · simp [h]
    · simp [h]
  · intro k hk
    simp [hk]

theorem race_serial (cells : List (GCell K)) : ∀ (l : List Nat) (r : Race K), l.Nodup → (∀ i ∈ l, i < cells.length) →
    (∀ i ∈ l, r.reg i = none) →
    ((l.flatMap fun i => [i, i]).foldl (raceStep cf cells) r).area =
      (l.filterMap fun i => cells[i]?).foldl (fun a c => addAt a c.ij2 (addend cf c)) r.area := by
  intro l
  induction l with
  | nil => intro r _ _ _; rfl
  | cons i l ih =>
    intro r hn hl hr
    have hi : i < cells.length := hl i (by simp)
    have hc : cells[i]? = some cells[i] := List.getElem?_eq_getElem hi
    obtain ⟨g, h1, h2⟩ := raceStep_two cf cells r i _ hc (hr i (by simp))
    rw [List.flatMap_cons, List.foldl_append]
    simp only [List.foldl_cons, List.foldl_nil]
    rw [h1, ih _ (List.nodup_cons.mp hn).2 (fun k hk => hl k (by simp [hk]))]
    · simp only [List.filterMap_cons, hc, List.foldl_cons]
    · intro k hk
      have : k ≠ i := fun h => (List.nodup_cons.mp hn).1 (h ▸ hk)
      rw [show Race.reg (⟨addAt r.area cells[i].ij2 (addend cf cells[i]), g⟩ : Race K) k = g k from rfl, h2 k this]
      exact hr k (by simp [hk])

theorem filterMap_range {β : Type} (l : List β) : (List.range l.length).filterMap (fun i => l[i]?) = l := by
  induction l with
  | nil => rfl
  | cons a l ih =>
    rw [List.length_cons, List.range_succ_eq_map, List.filterMap_cons, List.filterMap_map]
    simp only [List.getElem?_cons_zero]
    congr 1

theorem raceTile_serial (cells : List (GCell K)) (sched : List Nat) (h : OneByOne cells.length sched) (a : Nat → K) :
    raceTile cf sched cells a = cells.foldl (fun a c => addAt a c.ij2 (addend cf c)) a := by
  obtain ⟨l, hl, rfl⟩ := h
  unfold raceTile
  rw [race_serial cf cells l _ (hl.nodup_iff.mpr List.nodup_range)
    (fun i hi => List.mem_range.mp (hl.mem_iff.mp hi)) (fun _ _ => rfl)]
  haveI : RightCommutative (fun (a : Nat → K) (c : GCell K) => addAt a c.ij2 (addend cf c)) :=
    ⟨fun a c d => addAt_comm a _ _ _ _⟩
  have : (l.filterMap fun i => cells[i]?).Perm cells := by
    have := hl.filterMap (fun i => cells[i]?)
    rwa [filterMap_range] at this
  exact this.foldl_eq _

theorem targetArea_gcell (cells : List (XCell K)) :
    (cells.map (gcell cf)).foldl (fun a c => addAt a c.ij2 (addend cf c)) (fun _ => 0) = targetArea cf cells := by
  rw [List.foldl_map]
  rfl

/-- Sums over the cells of a source cell, unless the GPU test meets equality. -/
theorem finish_noTarget (cells : List (XCell K)) (sched : Nat → List Nat) (tiles : List (List (GCell K))) (a : Acc K)
    (h : cf.sum = true ∨ cf.target = false) : finishGpu cf sched tiles a = finish cf cells a := by
  funext n
  unfold finishGpu finish
  cases hs : cf.sum
  · rw [hs] at h
    have ht : cf.target = false := by simpa using h
    simp [ht]
  · simp

end Verif.GpuConserve
