import Verif.Model.LandDomain
import Verif.Lemmas.CString
import Verif.Spec.LandDomain
import Mathlib.Tactic.Ring
import Mathlib.Tactic.IntervalCases
/-
Lemmas about make_land_domain.
-/
namespace Verif.LandDomain

open Verif.Spec.LandDomain Verif.CString

theorem digits_small {f : Nat} (hf : f < 9) : digits (f + 1) = [Char.ofNat (49 + f)] := by
  interval_cases f <;> decide

/-- A name of make_coupler_mosaic contains the name of a face only if it is the face of the file. -/
theorem name_match (mosaic pre : List Char) (hX : 'X' ∉ mosaic) (f k : Nat) (hf : f < 9) (hk : k < 9)
    (hpre : ¬faceName mosaic f <:+: pre) :
    strstr (pre ++ 'X' :: (mosaic ++ "_tile".toList ++ digits (k + 1) ++ ".nc".toList)) (faceName mosaic f) = decide (k = f) := by
  rw [Bool.eq_iff_iff, strstr_iff, decide_eq_true_iff]
  constructor
  · intro h
    have hX' : 'X' ∉ faceName mosaic f := by
      unfold faceName
      rw [digits_small hf]
      interval_cases f <;> simp [hX]
    rcases infix_split hX' h with h | ⟨s, t, h⟩
    · exact absurd h hpre
    · have hl := congrArg List.length h
      have hr := congrArg List.reverse h
      unfold faceName at hl hr
      rw [digits_small hf, digits_small hk] at hl hr
      simp only [List.length_append, List.length_cons, List.length_nil, List.reverse_append, List.reverse_cons,
        List.reverse_nil, List.nil_append] at hl hr
      rw [show ".nc".toList.reverse = ['c', 'n', '.'] by decide] at hr
      rw [show ".nc".toList.length = 3 by decide] at hl
      rw [← List.length_reverse (as := t)] at hl
      generalize t.reverse = t' at hl hr
      match t', hl, hr with
      | [], hl, hr =>
        simp at hr
        all_goals
          have := hr.1
          interval_cases f <;> exact absurd this (by decide)
      | [_], hl, hr =>
        simp at hr
        all_goals
          have := hr.2.1
          interval_cases f <;> exact absurd this (by decide)
      | [_, _], hl, hr =>
        simp at hr
        all_goals
          have := hr.2.2.1
          interval_cases f <;> exact absurd this (by decide)
      | [_, _, _], hl, hr =>
        simp at hr
        have := hr.2.2.2.1
        interval_cases f <;> interval_cases k <;> first | rfl | exact absurd this (by decide)
      | _ :: _ :: _ :: _ :: _, hl, hr =>
        simp only [List.length_cons] at hl
        omega
  · rintro rfl
    exact ⟨pre ++ ['X'], ".nc".toList, by simp [faceName]⟩

/-! Loops which may stop -/

theorem mapM_all_ok {ε α β : Type} {f : α → Except ε β} {h : α → β} {l : List α} (hf : ∀ a ∈ l, f a = .ok (h a)) :
    l.mapM f = .ok (l.map h) := by
  induction l with
  | nil => simp [pure, Except.pure]
  | cons a l ih =>
    rw [List.mapM_cons, hf a (by simp), ih fun b hb => hf b (by simp [hb])]
    rfl

theorem mapM_some_error {ε α β : Type} {f : α → Except ε β} {l : List α} {a : α} (ha : a ∈ l) {e : ε} (hf : f a = .error e) :
    ∃ e', l.mapM f = .error e' := by
  induction l with
  | nil => simp at ha
  | cons b l ih =>
    rw [List.mapM_cons]
    cases hb : f b with
    | error e' => exact ⟨e', rfl⟩
    | ok x =>
      rcases List.mem_cons.1 ha with rfl | ha
      · rw [hf] at hb; cases hb
      · obtain ⟨e', he⟩ := ih ha
        rw [he]
        exact ⟨e', rfl⟩

theorem forM_ok_iff {ε α : Type} {f : α → Except ε Unit} {l : List α} : l.forM f = .ok () ↔ ∀ a ∈ l, f a = .ok () := by
  induction l with
  | nil => simp [pure, Except.pure]
  | cons a l ih =>
    show (f a >>= fun _ => l.forM f) = _ ↔ _
    cases ha : f a with
    | error e => simp [bind, Except.bind, ha]
    | ok u =>
      simp only [bind, Except.bind, List.mem_cons, forall_eq_or_imp, ha]
      rw [← ih]
      cases u
      simp

theorem check_iff (npts : Nat) (mask : Nat → Bool) (ntile : Nat → Nat) :
    check npts mask ntile = .ok () ↔ ∀ n < npts, mask n = true ↔ 0 < ntile n := by
  unfold check
  rw [forM_ok_iff]
  simp only [List.mem_range]
  refine forall_congr' fun n => forall_congr' fun _ => ?_
  by_cases h1 : mask n = true <;> by_cases h2 : ntile n = 0 <;> simp [h1, h2, Nat.pos_iff_ne_zero]

/-! Areas and numbers of tiles -/

variable {K : Type} [Field K]

theorem areaIn_append {R : Type} (cell : R → Nat) (area : R → K) (l l' : List R) (n : Nat) :
    areaIn cell area (l ++ l') n = areaIn cell area l n + areaIn cell area l' n := by
  simp [areaIn]

theorem areaIn_cons {R : Type} (cell : R → Nat) (area : R → K) (r : R) (l : List R) (n : Nat) :
    areaIn cell area (r :: l) n = (if n = cell r then area r else 0) + areaIn cell area l n := by
  unfold areaIn
  by_cases h : cell r = n
  · simp [h]
  · rw [List.filter_cons_of_neg (by simpa using h), if_neg (fun h' => h h'.symm), zero_add]

theorem areaIn_scale {R : Type} (cell : R → Nat) (area : R → K) (s : K) (l : List R) (n : Nat) :
    areaIn cell (fun r => area r * s) l n = areaIn cell area l n * s := by
  induction l with
  | nil => simp [areaIn]
  | cons r l ih =>
    rw [areaIn_cons, areaIn_cons, ih, add_mul]
    split <;> ring

theorem records_area (sphere : K) (nx npts : Nat) (l : List (Rec K)) (a : Nat → K)
    (hl : ∀ r ∈ l, r.j2 * nx + r.i2 < npts) :
    l.foldlM (init := a) (fun a r => addAt npts (r.j2 * nx + r.i2) (r.area * sphere) a)
      = .ok fun n => a n + areaIn (fun r : Rec K => r.j2 * nx + r.i2) Rec.area l n * sphere := by
  induction l generalizing a with
  | nil => simp [areaIn, pure, Except.pure]
  | cons r l ih =>
    rw [List.foldlM_cons, addAt, if_pos (hl r (by simp))]
    simp only [bind, Except.bind]
    rw [ih _ fun r hr => hl r (by simp [hr])]
    congr 1
    funext n
    rw [areaIn_cons]
    split <;> ring

theorem landArea_ok (sphere : K) (inp : Input K) (face : Nat) (good : List (List Char × List (Rec K)))
    (hgood : good = inp.files.filter fun file => strstr file.1 (faceName inp.mosaic face))
    (h : ∀ file ∈ inp.files, ∀ r ∈ file.2, r.j2 * inp.nx + r.i2 < inp.nx * inp.ny) :
    landArea sphere inp face
      = .ok fun n => areaIn (fun r : Rec K => r.j2 * inp.nx + r.i2) Rec.area (good.flatMap Prod.snd) n * sphere := by
  subst hgood
  unfold landArea
  generalize inp.files = files at h
  have key : ∀ (files : List (List Char × List (Rec K))) (a : Nat → K),
      (∀ file ∈ files, ∀ r ∈ file.2, r.j2 * inp.nx + r.i2 < inp.nx * inp.ny) →
      (files.foldlM (init := a) fun a file =>
        if strstr file.1 (faceName inp.mosaic face) then
          file.2.foldlM (init := a) fun a r => addAt (inp.nx * inp.ny) (r.j2 * inp.nx + r.i2) (r.area * sphere) a
        else .ok a)
      = .ok fun n => a n + areaIn (fun r : Rec K => r.j2 * inp.nx + r.i2) Rec.area
          ((files.filter fun file => strstr file.1 (faceName inp.mosaic face)).flatMap Prod.snd) n * sphere := by
    intro files
    induction files with
    | nil => intro a _; simp [areaIn, pure, Except.pure]
    | cons file files ih =>
      intro a hh
      rw [List.foldlM_cons]
      by_cases hs : strstr file.1 (faceName inp.mosaic face) = true
      · rw [if_pos hs, records_area _ _ _ _ _ (hh file (by simp))]
        simp only [bind, Except.bind]
        rw [ih _ fun f hf => hh f (by simp [hf]), List.filter_cons_of_pos (by simpa using hs), List.flatMap_cons]
        congr 1
        funext n
        rw [areaIn_append]
        ring
      · rw [if_neg hs]
        simp only [bind, Except.bind]
        rw [ih _ fun f hf => hh f (by simp [hf]), List.filter_cons_of_neg (by simpa using hs)]
  rw [key files _ h]
  simp

theorem landNtile_ok (inp : Input K) (face : Nat) (hf : inp.nfaces ≠ 1) (hn : 0 < inp.nx * inp.ny)
    (hidx : ∀ idx ∈ inp.restarts face, 0 ≤ idx) :
    ∃ T, landNtile inp face = .ok T ∧ ∀ n, T n = tilesIn (inp.nx * inp.ny) (inp.restarts face) n := by
  unfold landNtile
  rw [if_neg hf]
  have key : ∀ (l : List Int) (a : Nat → Nat), (∀ idx ∈ l, 0 ≤ idx) → ∃ T,
      (l.foldlM (init := a) fun a idx =>
        if idx < 0 then (.error .negative : Except Err (Nat → Nat))
        else if inp.nx * inp.ny = 0 then .error .undefined
        else .ok fun n => if n = idx.toNat % (inp.nx * inp.ny) then a n + 1 else a n) = .ok T
      ∧ ∀ n, T n = a n + tilesIn (inp.nx * inp.ny) l n := by
    intro l
    induction l with
    | nil => intro a _; exact ⟨a, rfl, fun n => by simp [tilesIn]⟩
    | cons idx l ih =>
      intro a hh
      have h0 := hh idx (by simp)
      rw [List.foldlM_cons, if_neg (by omega), if_neg (by omega)]
      simp only [bind, Except.bind]
      obtain ⟨T, h1, h2⟩ := ih (fun n => if n = idx.toNat % (inp.nx * inp.ny) then a n + 1 else a n)
        fun i hi => hh i (by simp [hi])
      refine ⟨T, h1, fun n => ?_⟩
      rw [h2 n]
      obtain ⟨m, rfl⟩ := Int.eq_ofNat_of_zero_le h0
      unfold tilesIn
      rw [List.countP_cons]
      have : ((m : Int) % ((inp.nx * inp.ny : Nat) : Int) = (n : Int)) ↔ n = (m : Int).toNat % (inp.nx * inp.ny) := by
        rw [← Int.natCast_mod, Int.toNat_natCast]
        constructor <;> intro h <;> [exact (Int.ofNat.inj h).symm; rw [h]]
      simp only [this, decide_eq_true_eq]
      split <;> omega
  obtain ⟨T, h1, h2⟩ := key (inp.restarts face) (fun _ => 0) hidx
  exact ⟨T, h1, fun n => by rw [h2 n, Nat.zero_add]⟩

theorem landNtile_negative (inp : Input K) (face : Nat) (hidx : ∃ idx ∈ inp.restarts face, idx < 0) :
    ∃ e, landNtile inp face = .error e := by
  unfold landNtile
  split
  · exact ⟨_, rfl⟩
  · generalize (fun _ => 0 : Nat → Nat) = a
    generalize inp.restarts face = l at hidx
    induction l generalizing a with
    | nil => simp at hidx
    | cons idx l ih =>
      rw [List.foldlM_cons]
      by_cases h : idx < 0
      · rw [if_pos h]; exact ⟨_, rfl⟩
      · rw [if_neg h]
        by_cases h' : inp.nx * inp.ny = 0
        · rw [if_pos h']; exact ⟨_, rfl⟩
        · rw [if_neg h']
          simp only [bind, Except.bind]
          apply ih
          obtain ⟨i, hi, h0⟩ := hidx
          rcases List.mem_cons.1 hi with rfl | hi
          · exact absurd h0 h
          · exact ⟨i, hi, h0⟩

end Verif.LandDomain
