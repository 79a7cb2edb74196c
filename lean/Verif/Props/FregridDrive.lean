import Verif.Model.FregridDrive
import Mathlib.Data.List.Nodup
import Mathlib.Data.List.Range
import Mathlib.Data.List.Flatten
import Mathlib.Tactic.Tauto
/-
C130: each slab of each field is remapped once, to its place.
-/
namespace Verif.FregridDrive

/-- Settings as `get_input_metadata` makes them: at least one level, the last belongs to the first and the number; without levels there is one. -/
def Set (f : Fld) : Prop := f.kend + 1 = f.kstart + f.nz ∧ (f.hasZ = false → f.kstart = 0 ∧ f.nz = 1)

/-- The place `(t, n, z)` is in the output field, of `nt` times. -/
def InOut (nt : Nat) (f : Fld) (p : Nat × Nat × Nat) : Prop := (if f.hasT then p.1 < nt else p.1 = 0 ∧ 0 < nt) ∧ p.2.1 < f.nn ∧ p.2.2 < f.nz

theorem mem_drive {e : Bool} {nt : Nat} {fs : List Fld} {v : Move} :
    v ∈ drive e nt fs ↔ ∃ m < nt, ∃ l, ∃ f, fs[l]? = some f ∧ v ∈ fieldMoves e m l f := by
  unfold drive
  simp only [List.mem_flatMap, List.mem_range]
  constructor
  · rintro ⟨m, hm, l, hl, h⟩
    rw [List.getElem?_eq_getElem hl] at h
    exact ⟨m, hm, l, _, List.getElem?_eq_getElem hl, h⟩
  · rintro ⟨m, hm, l, f, hf, h⟩
    obtain ⟨hl, _⟩ := List.getElem?_eq_some_iff.1 hf
    exact ⟨m, hm, l, hl, by rw [hf]; exact h⟩

theorem mem_fieldMoves {e : Bool} {m l : Nat} {f : Fld} {v : Move} :
    v ∈ fieldMoves e m l f ↔ (f.hasT = true ∨ m = 0) ∧ f.regrid = true ∧ ∃ n < f.nn,
      (e = true ∧ v = ⟨l, m + f.lstart, n, f.kstart, m, n, 0, f.nz⟩ ∨
       e = false ∧ ∃ z, f.kstart ≤ z ∧ z ≤ f.kend ∧ v = ⟨l, m + f.lstart, n, z, m, n, z, 1⟩) := by
  unfold fieldMoves
  by_cases h1 : f.hasT = false ∧ 0 < m
  · rw [if_pos h1]
    constructor
    · intro h; cases h
    · rintro ⟨h | h, _⟩
      · rw [h1.1] at h; cases h
      · omega
  · rw [if_neg h1]
    have h1' : f.hasT = true ∨ m = 0 := by
      cases hT : f.hasT
      · right
        by_contra hm
        exact h1 ⟨hT, by omega⟩
      · exact Or.inl rfl
    by_cases h2 : f.regrid = false
    · rw [if_pos h2]
      constructor
      · intro h; cases h
      · rintro ⟨_, h, _⟩; rw [h2] at h; cases h
    · rw [if_neg h2]
      have h2' : f.regrid = true := by simpa using h2
      simp only [List.mem_flatMap, List.mem_range, h1', h2', true_and]
      refine exists_congr fun n => and_congr_right fun hn => ?_
      cases e
      · simp only [Bool.false_eq_true, if_false, List.mem_map, List.mem_range'_1, false_and, true_and, false_or]
        constructor
        · rintro ⟨z, ⟨hz1, hz2⟩, rfl⟩
          exact ⟨z, hz1, by omega, rfl⟩
        · rintro ⟨z, hz1, hz2, rfl⟩
          exact ⟨z, ⟨hz1, by omega⟩, rfl⟩
      · simp

/-- The levels written for a field, in terms of places. -/
theorem mem_cells {e : Bool} {nt : Nat} {fs : List Fld} {l : Nat} {f : Fld} (hf : fs[l]? = some f) (hs : Set f) {p q : Nat × Nat × Nat} :
    ⟨l, p, q⟩ ∈ (drive e nt fs).flatMap cells ↔ f.regrid = true ∧ q.1 < nt ∧ (f.hasT = true ∨ q.1 = 0) ∧ q.2.1 < f.nn ∧ p.1 = q.1 + f.lstart ∧ p.2.1 = q.2.1 ∧
      (e = true ∧ q.2.2 < f.nz ∧ p.2.2 = f.kstart + q.2.2 ∨ e = false ∧ f.kstart ≤ q.2.2 ∧ q.2.2 < f.kstart + f.nz ∧ p.2.2 = q.2.2) := by
  obtain ⟨p1, p2, p3⟩ := p
  obtain ⟨q1, q2, q3⟩ := q
  simp only [List.mem_flatMap]
  constructor
  · rintro ⟨v, hv, hc⟩
    obtain ⟨m, hm, l', f', hf', hv⟩ := mem_drive.1 hv
    obtain ⟨hT, hr, n, hn, hv⟩ := mem_fieldMoves.1 hv
    unfold cells at hc
    obtain ⟨j, hj, hc⟩ := List.mem_map.1 hc
    rw [List.mem_range] at hj
    rcases hv with ⟨he, rfl⟩ | ⟨he, z, hz1, hz2, rfl⟩
    · simp only [Cell.mk.injEq, Prod.mk.injEq] at hc
      obtain ⟨rfl, ⟨h1, h2, h3⟩, h4, h5, h6⟩ := hc
      rw [hf] at hf'
      cases hf'
      simp only at hj
      refine ⟨hr, by omega, hT.imp id (fun h => by omega), by omega, by omega, by omega, Or.inl ⟨he, by omega, by omega⟩⟩
    · simp only [Cell.mk.injEq, Prod.mk.injEq] at hc
      obtain ⟨rfl, ⟨h1, h2, h3⟩, h4, h5, h6⟩ := hc
      rw [hf] at hf'
      cases hf'
      simp only at hj
      have := hs.1
      refine ⟨hr, by omega, hT.imp id (fun h => by omega), by omega, by omega, by omega, Or.inr ⟨he, by omega, by omega, by omega⟩⟩
  · rintro ⟨hr, h1, hT, hn, e1, e2, h⟩
    rcases h with ⟨he, hz, e3⟩ | ⟨he, hz1, hz2, e3⟩
    · refine ⟨⟨l, q1 + f.lstart, q2, f.kstart, q1, q2, 0, f.nz⟩, mem_drive.2 ⟨q1, h1, l, f, hf, mem_fieldMoves.2 ⟨hT, hr, q2, hn, Or.inl ⟨he, rfl⟩⟩⟩, ?_⟩
      exact List.mem_map.2 ⟨q3, List.mem_range.2 hz, by simp [e1, e2, e3]⟩
    · have := hs.1
      refine ⟨⟨l, q1 + f.lstart, q2, q3, q1, q2, q3, 1⟩, mem_drive.2 ⟨q1, h1, l, f, hf, mem_fieldMoves.2 ⟨hT, hr, q2, hn, Or.inr ⟨he, q3, hz1, by omega, rfl⟩⟩⟩, ?_⟩
      exact List.mem_map.2 ⟨0, by simp, by simp [e1, e2, e3]⟩

theorem nodup_fieldMoves {e : Bool} {m l : Nat} {f : Fld} : (((fieldMoves e m l f).flatMap cells).map fun c => (c.field, c.out)).Nodup := by
  unfold fieldMoves
  by_cases h1 : f.hasT = false ∧ 0 < m
  · rw [if_pos h1]; simp
  · rw [if_neg h1]
    by_cases h2 : f.regrid = false
    · rw [if_pos h2]; simp
    · rw [if_neg h2]
      cases e
      · simp only [Bool.false_eq_true, if_false, List.flatMap_assoc, List.map_flatMap]
        rw [List.nodup_flatMap]
        refine ⟨fun n _ => ?_, ?_⟩
        · have e1 : ∀ l' : List Nat, (l'.map fun z => (⟨l, m + f.lstart, n, z, m, n, z, 1⟩ : Move)).flatMap (fun a => (cells a).map fun c => (c.field, c.out)) =
              l'.map fun z => (l, m, n, z) := by
            intro l'
            induction l' with
            | nil => rfl
            | cons a l' ih => rw [List.map_cons, List.flatMap_cons, ih]; rfl
          rw [e1]
          refine List.Nodup.map ?_ (List.nodup_range' ..)
          intro a b hab
          simpa using hab
        · refine List.nodup_range.imp ?_
          intro a b hab
          intro x hx hy
          simp only [List.mem_flatMap, List.mem_map, cells] at hx hy
          obtain ⟨_, ⟨z, _, rfl⟩, c, ⟨j, _, rfl⟩, rfl⟩ := hx
          obtain ⟨_, ⟨z', _, rfl⟩, c, ⟨j', _, rfl⟩, h⟩ := hy
          simp only [Prod.mk.injEq] at h
          exact hab h.2.2.1.symm
      · simp only [if_true, List.flatMap_assoc, List.map_flatMap]
        rw [List.nodup_flatMap]
        refine ⟨fun n _ => ?_, ?_⟩
        · simp only [cells, List.flatMap_cons, List.flatMap_nil, List.append_nil, List.map_map]
          refine List.Nodup.map ?_ List.nodup_range
          intro a b hab
          simpa using hab
        · refine List.nodup_range.imp ?_
          intro a b hab
          intro x hx hy
          simp only [List.mem_flatMap, List.mem_map, cells, List.mem_singleton] at hx hy
          obtain ⟨_, rfl, c, ⟨j, _, rfl⟩, rfl⟩ := hx
          obtain ⟨_, rfl, c, ⟨j', _, rfl⟩, h⟩ := hy
          simp only [Prod.mk.injEq] at h
          exact hab h.2.2.1.symm

theorem cell_of_fieldMoves {e : Bool} {m l : Nat} {f : Fld} {c : Cell} (h : c ∈ (fieldMoves e m l f).flatMap cells) : c.field = l ∧ c.out.1 = m := by
  obtain ⟨v, hv, hc⟩ := List.mem_flatMap.1 h
  obtain ⟨_, _, n, _, hv⟩ := mem_fieldMoves.1 hv
  obtain ⟨j, _, rfl⟩ := List.mem_map.1 hc
  rcases hv with ⟨_, rfl⟩ | ⟨_, z, _, _, rfl⟩ <;> exact ⟨rfl, rfl⟩

/-- **C130, once.** No place of the output is written twice. -/
theorem C130_once (e : Bool) (nt : Nat) (fs : List Fld) : (((drive e nt fs).flatMap cells).map fun c => (c.field, c.out)).Nodup := by
  unfold drive
  simp only [List.flatMap_assoc, List.map_flatMap]
  rw [List.nodup_flatMap]
  refine ⟨fun m _ => ?_, ?_⟩
  · rw [List.nodup_flatMap]
    refine ⟨fun l hl => ?_, ?_⟩
    · rw [List.getElem?_eq_getElem (List.mem_range.1 hl)]
      have := nodup_fieldMoves (e := e) (m := m) (l := l) (f := fs[l]'(List.mem_range.1 hl))
      rwa [List.map_flatMap] at this
    · refine List.nodup_range.imp ?_
      intro a b hab x hx hy
      dsimp only at hx hy
      cases ha : fs[a]? with
      | none => rw [ha] at hx; simp at hx
      | some f =>
        cases hb : fs[b]? with
        | none => rw [hb] at hy; simp at hy
        | some g =>
          rw [ha] at hx
          rw [hb] at hy
          simp only [← List.map_flatMap] at hx hy
          obtain ⟨c, hc, rfl⟩ := List.mem_map.1 hx
          obtain ⟨d, hd, h⟩ := List.mem_map.1 hy
          simp only [Prod.mk.injEq] at h
          exact hab ((cell_of_fieldMoves hc).1.symm.trans (h.1.symm.trans (cell_of_fieldMoves hd).1))
  · refine List.nodup_range.imp ?_
    intro a b hab x hx hy
    obtain ⟨la, _, hx⟩ := List.mem_flatMap.1 hx
    obtain ⟨lb, _, hy⟩ := List.mem_flatMap.1 hy
    cases ha : fs[la]? with
    | none => rw [ha] at hx; simp at hx
    | some f =>
      cases hb : fs[lb]? with
      | none => rw [hb] at hy; simp at hy
      | some g =>
        rw [ha] at hx
        rw [hb] at hy
        simp only [← List.map_flatMap] at hx hy
        obtain ⟨c, hc, rfl⟩ := List.mem_map.1 hx
        obtain ⟨d, hd, h⟩ := List.mem_map.1 hy
        simp only [Prod.mk.injEq] at h
        exact hab ((cell_of_fieldMoves hc).2.symm.trans ((congrArg Prod.fst h.2).symm.trans (cell_of_fieldMoves hd).2))

/-- **C130, all slabs.** With `--extrapolate`, or if the levels begin with the first: each place of the output of a remapped field is written from the place of the
input at the same time and level of the chosen part, and nothing else is written. Missing: levels that begin later, see `C130_levels_wrong`. -/
theorem C130_slabs_partial {e : Bool} {nt : Nat} {fs : List Fld} {l : Nat} {f : Fld} (hf : fs[l]? = some f) (hs : Set f) (h : e = true ∨ f.kstart = 0)
    (p q : Nat × Nat × Nat) : ⟨l, p, q⟩ ∈ (drive e nt fs).flatMap cells ↔ f.regrid = true ∧ InOut nt f q ∧ p = (f.lstart + q.1, q.2.1, f.kstart + q.2.2) := by
  rw [mem_cells hf hs]
  obtain ⟨p1, p2, p3⟩ := p
  obtain ⟨q1, q2, q3⟩ := q
  unfold InOut
  simp only [Prod.mk.injEq]
  have hT : (q1 < nt ∧ (f.hasT = true ∨ q1 = 0)) ↔ (if f.hasT = true then q1 < nt else q1 = 0 ∧ 0 < nt) := by
    cases f.hasT
    · simp; constructor <;> rintro ⟨a, b⟩ <;> omega
    · simp
  constructor
  · rintro ⟨a, b, c, d, e1, e2, ⟨_, g1, g2⟩ | ⟨he, g1, g2, g3⟩⟩
    · exact ⟨a, ⟨hT.1 ⟨b, c⟩, d, g1⟩, by omega, e2, g2⟩
    · have hk : f.kstart = 0 := by
        rcases h with h | h
        · rw [h] at he; cases he
        · exact h
      exact ⟨a, ⟨hT.1 ⟨b, c⟩, d, by omega⟩, by omega, e2, by omega⟩
  · rintro ⟨a, ⟨b, c, d⟩, e1, e2, e3⟩
    obtain ⟨b1, b2⟩ := hT.2 b
    refine ⟨a, b1, b2, c, by omega, e2, ?_⟩
    cases e
    · have hk : f.kstart = 0 := by
        rcases h with h | h
        · cases h
        · exact h
      exact Or.inr ⟨rfl, by omega, by omega, by omega⟩
    · exact Or.inl ⟨rfl, d, e3⟩

/-- **C130 fails for levels that begin later.** Without `--extrapolate` the level of the input is used in the output: the first level of the output is never written,
and a level behind the last is. -/
theorem C130_levels_wrong {nt : Nat} {fs : List Fld} {l : Nat} {f : Fld} (hf : fs[l]? = some f) (hs : Set f) (hr : f.regrid = true) (hk : 0 < f.kstart)
    (hz : 0 < f.nz) (hn : 0 < f.nn) (ht : 0 < nt) :
    (∀ c ∈ (drive false nt fs).flatMap cells, c.field = l → c.out.2.2 ≠ 0) ∧ ∃ c ∈ (drive false nt fs).flatMap cells, c.field = l ∧ f.nz ≤ c.out.2.2 := by
  constructor
  · rintro ⟨l', p, q⟩ hc rfl
    obtain ⟨_, _, _, _, _, _, h⟩ := (mem_cells hf hs).1 hc
    rcases h with ⟨h, _⟩ | ⟨_, h, _⟩
    · cases h
    · show q.2.2 ≠ 0
      omega
  · exact ⟨⟨l, (f.lstart, 0, f.kend), (0, 0, f.kend)⟩, (mem_cells hf hs).2 ⟨hr, ht, Or.inr rfl, hn, by simp, rfl,
      Or.inr ⟨rfl, by have := hs.1; show f.kstart ≤ f.kend; omega, by have := hs.1; show f.kend < _; omega, rfl⟩⟩, rfl, by have := hs.1; show f.nz ≤ f.kend; omega⟩

/-- **C130 fails without time steps.** If a field has a time axis of length 0, no field is written, also none without time. -/
theorem C130_norecords_wrong (e : Bool) (fs : List Fld) : drive e 0 fs = [] := rfl

/-- **C130 fails for vectors.** They are remapped at the level behind the last of the scalar before: for the same levels it is outside of the output. -/
theorem C130_vector_wrong (f g : Fld) (hs : Set f) (hg : g.nz = f.nz) (m l : Nat) : g.nz ≤ (vectorMove (left f).1 (left f).2 m l g).outZ := by
  have := hs.1
  show g.nz ≤ f.kend + 1
  omega

/-! ### Places in the file -/

/-- **C130, places.** For each field that is accepted, with rows and columns last and at most five dimensions, the place in the file is: the time on the dimension of
kind 'T', the place on that of kind 'N', the level on that of kind 'Z', and 0 on rows and columns. -/
theorem C130_places {pre : List Char} (h3 : pre.length ≤ 3) {fl : Bool × Bool × Bool} (hf : flags (pre ++ ['Y', 'X']) = some fl) {t n z : Nat} {s : List Nat}
    (hs : places (pre.length + 2) fl t n z = some s) :
    s = (pre ++ ['Y', 'X']).map fun c => if c = 'T' then t else if c = 'N' then n else if c = 'Z' then z else 0 := by
  match pre, h3 with
  | [], _ =>
    simp [flags] at hf
    subst hf
    simp [places] at hs
    simp [← hs]
  | [a], _ =>
    simp [flags] at hf
    subst hf
    by_cases h1 : a = 'T'
    · subst h1; simp [places] at hs; simp [← hs]
    · by_cases h2 : a = 'N'
      · subst h2; simp [places] at hs; simp [← hs]
      · by_cases h3 : a = 'Z'
        · subst h3; simp [places] at hs; simp [← hs]
        · simp [places, h1, h2, h3] at hs
  | [a, b], _ =>
    simp only [flags] at hf
    by_cases hz : a = 'Z'
    · subst hz; simp at hf
    · simp [hz] at hf
      subst hf
      by_cases a1 : a = 'T' <;> by_cases a2 : a = 'N' <;> by_cases b2 : b = 'N' <;> by_cases b3 : b = 'Z' <;>
        first
        | (subst a1; subst a2; simp_all; done)
        | (simp [places, a1, a2, b2, b3] at hs; done)
        | (simp [places, a1, a2, b2, b3] at hs; simp [← hs, a1, a2, b2, b3]; done)
        | (simp_all [places])
  | [a, b, c], _ =>
    simp only [flags] at hf
    by_cases hz : b = 'Z'
    · subst hz; simp at hf
    · simp [hz] at hf
      subst hf
      by_cases a1 : a = 'T' <;> by_cases b2 : b = 'N' <;> by_cases c2 : c = 'N' <;> by_cases c3 : c = 'Z' <;>
        first
        | (simp [places, a1, b2, c2, c3] at hs; done)
        | (simp [places, a1, b2, c2, c3] at hs; simp [← hs, a1, b2, c2, c3]; done)
        | (simp_all [places])

/-- **C130, kinds that are accepted.** Exactly fields without further dimensions, with time, with a fourth axis, with levels, and with these in this order. -/
theorem C130_accepted (pre : List Char) (t n z : Nat) :
    (∃ fl, flags (pre ++ ['Y', 'X']) = some fl ∧ (places (pre.length + 2) fl t n z).isSome) ↔
      pre ∈ [[], ['T'], ['N'], ['Z'], ['T', 'N'], ['T', 'Z'], ['N', 'Z'], ['T', 'N', 'Z']] := by
  constructor
  · rintro ⟨fl, hf, hs⟩
    match pre, hf, hs with
    | [], _, _ => simp
    | [a], hf, hs =>
      simp only [flags, List.cons_append, List.nil_append, List.length_cons, List.length_nil, List.head?_cons] at hf
      by_cases h1 : a = 'T'
      · simp [h1]
      by_cases h2 : a = 'N'
      · simp [h2]
      by_cases h3 : a = 'Z'
      · simp [h3]
      simp [h1, h2, h3] at hf
      subst hf
      simp [places] at hs
    | [a, b], hf, hs =>
      simp only [flags, List.cons_append, List.nil_append, List.length_cons, List.length_nil, List.head?_cons] at hf
      by_cases h1 : a = 'T' <;> by_cases h2 : a = 'N' <;> by_cases h3 : a = 'Z' <;> by_cases k1 : b = 'N' <;> by_cases k2 : b = 'Z' <;>
        first
        | (subst h1; subst k1; simp; done)
        | (subst h1; subst k2; simp; done)
        | (subst h2; subst k2; simp; done)
        | (simp [h1, h2, h3, k1, k2] at hf; done)
        | (simp [h1, h2, h3, k1, k2] at hf; subst hf; simp [places] at hs; done)
    | [a, b, c], hf, hs =>
      simp only [flags, List.cons_append, List.nil_append, List.length_cons, List.length_nil, List.head?_cons] at hf
      by_cases h1 : a = 'T' <;> by_cases k1 : b = 'N' <;> by_cases k2 : b = 'Z' <;> by_cases l1 : c = 'N' <;> by_cases l2 : c = 'Z' <;>
        first
        | (subst h1; subst k1; subst l2; simp; done)
        | (simp [h1, k1, k2, l1, l2] at hf; done)
        | (simp [h1, k1, k2, l1, l2] at hf; subst hf; simp [places] at hs; done)
    | a :: b :: c :: d :: l, hf, hs =>
      exfalso
      unfold places at hs
      have : ((if fl.1 then [t] else []) ++ (if fl.2.1 then [n] else []) ++ (if fl.2.2 then [z] else [])).length ≤ 3 := by
        cases fl.1 <;> cases fl.2.1 <;> cases fl.2.2 <;> simp
      simp only [List.length_cons] at hs
      rw [if_neg (by omega)] at hs
      cases hs
  · intro h
    simp only [List.mem_cons, List.not_mem_nil, or_false] at h
    rcases h with rfl | rfl | rfl | rfl | rfl | rfl | rfl | rfl <;> exact ⟨_, rfl, rfl⟩

/-! ### Memory -/

/-- **C130, memory.** Without output levels, and for fields with levels, as many levels are written as there is memory for. Missing: fields without levels together
with output levels, see `C130_flat_wrong`. -/
theorem C130_memory_partial (e : Bool) (vg : Option Nat) (f : Fld) (h : vg = none ∨ f.hasZ = true) : written e vg f = allocated e vg f := by
  rcases h with rfl | h
  · rfl
  · cases vg <;> simp [written, allocated, h]

/-- **C130 fails for fields without levels and `--dst_vgrid`.** The output field has as many levels as the vertical grid, memory is there for one. -/
theorem C130_flat_wrong (n : Nat) (f : Fld) (hz : f.hasZ = false) (hs : Set f) (hn : 1 < n) : allocated true (some n) f < written true (some n) f := by
  simp [written, allocated, hz, (hs.2 hz).2, hn]

/-- **C130 fails for chosen levels and `--dst_vgrid`.** All levels of the axis are copied, memory is there for the chosen ones. -/
theorem C130_copied_wrong (nk1 : Nat) (f : Fld) (hz : f.hasZ = true) : f.nz < copied nk1 f ↔ f.nz < nk1 := by
  simp [copied, hz]

/-! ### Examples -/

/-- A field with three times and levels 1 to 2, and one without time: all six and one slabs. -/
example : (drive false 3 [⟨true, true, false, true, 1, 2, 0, 1, 4⟩, ⟨true, false, false, false, 1, 1, 0, 0, 0⟩]).length = 7 := by rfl

/-- `C130_levels_wrong`: levels 2 to 3 of a field are written to the levels 2 and 3 of an output that has the levels 0 and 1 (counted from 0: 1, 2). -/
example : (drive false 1 [⟨true, true, false, true, 1, 2, 1, 2, 0⟩]).map (·.outZ) = [1, 2] := by rfl

/-- `C130_slabs_partial` with `--extrapolate`: the same levels go to the levels 0 and 1. -/
example : ((drive true 1 [⟨true, true, false, true, 1, 2, 1, 2, 0⟩]).flatMap cells).map (fun c => (c.inp.2.2, c.out.2.2)) = [(1, 0), (2, 1)] := by rfl

/-- Kinds of a monthly mean with a daily cycle on levels. -/
example : flags ['T', 'N', 'Z', 'Y', 'X'] = some (true, true, true) ∧ places 5 (true, true, true) 7 2 4 = some [7, 2, 4, 0, 0] := by decide

end Verif.FregridDrive
