import Verif.Lemmas.FieldAtts
import Mathlib.Data.List.Forall2
/-
C132: attributes of fields that choose the way of remapping.
-/
namespace Verif.FieldAtts
open Verif.Spec.FieldAtts

/-- **C132, values.** In an attribute of entries "name: value" the value of the first entry with the name is found, and none if there is none; if no other name ends with
the name. Missing: names that end with the name, see `C132_suffix_wrong`. -/
theorem C132_value_partial {k : Str} (hk : ' ' ∉ k ∧ ':' ∉ k) {l : List Entry} (hok : ∀ e ∈ l, e.Ok) (hsuf : ∀ e ∈ l, k <:+ e.name → k = e.name) :
    parse (text l) (k ++ [':']) = (lookup k l).map some := by
  unfold parse
  rcases after_text hk hok hsuf with ⟨h1, h2⟩ | ⟨v, g, r, hv, hb, h1, h2, hr⟩
  · rw [h1, h2]; rfl
  · obtain ⟨w1, w2⟩ := word_of (g := g) hv hb hr
    rw [h1, h2]
    simp only [w1]
    cases hvr : v ++ r with
    | nil => exact absurd (List.append_eq_nil_iff.1 hvr).1 hv
    | cons c x =>
      rw [hvr] at w2
      simp only [w2]
      rfl

/-- **C132 fails for names that end with the name.** The area of "area" is looked for in the file of "cell_area". -/
theorem C132_suffix_wrong : parse "cell_area: ca.nc area: a.nc".toList "area:".toList = some (some "ca.nc".toList) := by decide +kernel

/-- **C132, methods.** Sums are remapped as sums exactly if the entry "area" says so, means if it says so or is not there; other values end the program. -/
theorem C132_methods_partial {l : List Entry} (hok : ∀ e ∈ l, e.Ok) (hsuf : ∀ e ∈ l, "area".toList <:+ e.name → "area".toList = e.name) :
    cellMethods (some (text l)) = (match lookup "area".toList l with
      | none => .ok .mean
      | some v => if v = "mean".toList then .ok .mean else if v = "sum".toList then .ok .sum else .error .method) := by
  have h := C132_value_partial (k := "area".toList) (by decide) hok hsuf
  unfold cellMethods
  have e : "area:".toList = "area".toList ++ [':'] := by decide
  simp only [e, h]
  cases lookup "area".toList l <;> rfl

/-- **C132 fails for entries that share a value.** "area: time: mean" is a mean over area and time; the program ends. -/
theorem C132_joint_wrong : cellMethods (some "area: time: mean".toList) = .error .method := by decide +kernel

/-- **C132, measures.** The entry "volume" if it is there, otherwise the entry "area", otherwise none. -/
theorem C132_measures_partial {l : List Entry} (hok : ∀ e ∈ l, e.Ok) (hsuf : ∀ e ∈ l, "area".toList <:+ e.name → "area".toList = e.name)
    (hsuf2 : ∀ e ∈ l, "volume".toList <:+ e.name → "volume".toList = e.name) :
    cellMeasures (some (text l)) = .ok (match lookup "volume".toList l with
      | some v => some (true, v)
      | none => (lookup "area".toList l).map fun v => (false, v)) := by
  have h := C132_value_partial (k := "area".toList) (by decide) hok hsuf
  have h2 := C132_value_partial (k := "volume".toList) (by decide) hok hsuf2
  unfold cellMeasures
  have e : "area:".toList = "area".toList ++ [':'] := by decide
  have e2 : "volume:".toList = "volume".toList ++ [':'] := by decide
  simp only [e, e2, h, h2]
  cases lookup "volume".toList l <;> cases lookup "area".toList l <;> rfl

/-- **C132, file of the measure.** If the program goes on, the file exists or is the field's own, which then has the variable; a file of the list is the one of the entry with
the variable's name, in the directory if one is given: with the number of the tile if there is such a file (or one tile: never). -/
theorem C132_file_partial {fs : Files} {dir : Option Str} {ntiles n : Nat} {name f : Str} {l : List Entry} (hl : fs.list = some (text l)) (hok : ∀ e ∈ l, e.Ok)
    (hname : ' ' ∉ name ∧ ':' ∉ name) (hsuf : ∀ e ∈ l, name <:+ e.name → name = e.name) (h : measureFile fs dir ntiles n name = .ok f) :
    (fs.hasVar name = true ∧ f = fs.own) ∨
    (fs.hasVar name = false ∧ fs.fileExists f = true ∧ ∃ v, lookup name l = some v ∧
      f = if ntiles ≠ 1 ∧ fs.fileExists (tileName (inDir dir v) n) then tileName (inDir dir v) n else inDir dir v) := by
  unfold measureFile at h
  cases hv : fs.hasVar name with
  | true =>
    rw [hv] at h
    simp only [if_true] at h
    cases h
    exact Or.inl ⟨rfl, rfl⟩
  | false =>
    right
    rw [hv, hl] at h
    simp only [Bool.false_eq_true, if_false, C132_value_partial hname hok hsuf] at h
    cases hlk : lookup name l with
    | none => rw [hlk] at h; cases h
    | some v =>
      rw [hlk] at h
      simp only [Option.map_some] at h
      refine ⟨rfl, ?_⟩
      suffices hh : ∀ g : Str, (if ntiles = 1 then (if fs.fileExists g = true then Except.ok g else Except.error Err.noFile)
          else if fs.fileExists (tileName g n) = true then .ok (tileName g n) else if fs.fileExists g = true then .ok g else .error .noFile) = .ok f →
          fs.fileExists f = true ∧ f = if ntiles ≠ 1 ∧ fs.fileExists (tileName g n) then tileName g n else g by
        obtain ⟨r1, r2⟩ := hh (inDir dir v) (by cases dir <;> exact h)
        exact ⟨r1, v, rfl, r2⟩
      clear h
      intro g h
      refine ⟨?_, ?_⟩
      · by_cases h1 : ntiles = 1
        · rw [if_pos h1] at h
          split at h
          · cases h; assumption
          · cases h
        · rw [if_neg h1] at h
          split at h
          · cases h; assumption
          · split at h
            · cases h; assumption
            · cases h
      · by_cases h1 : ntiles = 1
        · rw [if_pos h1] at h
          split at h
          · cases h; simp [h1]
          · cases h
        · rw [if_neg h1] at h
          split at h
          · rename_i he
            cases h
            rw [if_pos ⟨h1, he⟩]
          · rename_i he
            split at h
            · cases h
              rw [if_neg (fun hc => he hc.2)]
            · cases h

/-- **C132, place of the measure.** For a measure with at most times, and one of a fourth axis and levels before rows and columns, its time, place and level are read. -/
theorem C132_place {pre : List Char} (hp : ∀ c ∈ pre, c = 'T' ∨ c = 'N' ∨ c = 'Z') (hn : pre.Nodup) {fl : Bool × Bool × Bool}
    (h : measureAxes (pre ++ ['Y', 'X']) = .ok fl) (t n z : Int) :
    measureStart fl t n z = (pre ++ ['Y', 'X']).map fun c => if c = 'T' then t else if c = 'N' then n else if c = 'Z' then z else 0 := by
  match pre, hp, hn, h with
  | [], _, _, h => cases h; rfl
  | [a], hp, _, h =>
    rcases hp a (by simp) with rfl | rfl | rfl <;> first | (cases h; done) | (cases h; rfl)
  | [a, b], hp, hn, h =>
    rcases hp a (by simp) with rfl | rfl | rfl <;> rcases hp b (by simp) with rfl | rfl | rfl <;>
      first
      | (simp at hn; done)
      | (cases h; done)
      | (cases h; rfl)
  | a :: b :: c :: r, _, _, h =>
    have hlen : 4 < (a :: b :: c :: r ++ ['Y', 'X']).length := by simp
    unfold measureAxes at h
    simp only [if_pos hlen] at h
    have : ∀ (P : Prop) [Decidable P], (if P then (Except.error Err.axes : Except Err (Bool × Bool × Bool)) else .error .dims) ≠ .ok fl := by
      intro P _ hP
      by_cases hp : P
      · rw [if_pos hp] at hP; cases hP
      · rw [if_neg hp] at hP; cases hP
    exact absurd h (this _)

/-- **C132 fails with `--extrapolate` for measures with levels.** They are read at level -1. -/
theorem C132_extrapolate_wrong (t n : Int) (a b : Bool) : (-1 : Int) ∈ measureStart (a, b, true) t n (-1) := by
  simp [measureStart]

/-- **C132, files of tiles.** The name for tile `n` (counted from 0) has the number of the tile, from 1, before the ending, which is added if it is not there. -/
theorem C132_tile_name (n : Nat) : (∀ b : Str, tileName (b ++ ".nc".toList) n = b ++ ".tile".toList ++ (toString (n + 1)).toList ++ ".nc".toList) ∧
    (∀ f : Str, ¬ ".nc".toList <:+ f → tileName f n = f ++ ".tile".toList ++ (toString (n + 1)).toList ++ ".nc".toList) := by
  constructor
  · intro b
    unfold tileName
    rw [if_pos (by rw [List.isSuffixOf_iff_suffix]; exact List.suffix_append _ _)]
    have : (b ++ ".nc".toList).take ((b ++ ".nc".toList).length - 3) = b := by
      have h3 : ".nc".toList.length = 3 := rfl
      rw [List.length_append, h3, Nat.add_sub_cancel, List.take_left' rfl]
    rw [this]
    rfl
  · intro f hf
    unfold tileName
    rw [if_neg (by rw [List.isSuffixOf_iff_suffix]; exact hf)]
    rfl

/-! ### Way of remapping -/

theorem mapM_ways {c : Interp} {mono : Bool} : ∀ {atts : List (Option Str)} {l : List Interp}, atts.mapM (interpOf c mono) = .ok l →
    List.Forall₂ (fun a w => interpOf c mono a = .ok w) atts l := by
  intro atts
  induction atts with
  | nil => intro l h; cases h; exact List.Forall₂.nil
  | cons a atts ih =>
    intro l h
    rw [List.mapM_cons] at h
    cases h1 : interpOf c mono a with
    | error e => rw [h1] at h; cases h
    | ok w =>
      rw [h1] at h
      cases h2 : atts.mapM (interpOf c mono) with
      | error e => rw [h2] at h; cases h
      | ok l' =>
        rw [h2] at h
        cases h
        exact List.Forall₂.cons h1 (ih h2)

theorem interpOf_order2 {c : Interp} {mono : Bool} {a : Option Str} (h : interpOf c mono a = .ok .order2) : c = .order2 ∨ a = some "conserve_order2".toList := by
  cases a with
  | none => left; cases h; rfl
  | some s =>
    unfold interpOf at h
    cases mono with
    | true => left; simpa using h
    | false =>
      simp only [Bool.false_eq_true, if_false] at h
      split at h
      · cases h
      · split at h
        · right; rename_i hs; rw [hs]
        · split at h <;> cases h

/-- **C132, way.** Each field is remapped as its attribute says, as the command line says without an attribute or with the monotonic scheme. Bilinear and conservative fields
are never mixed, and `opcode` is bilinear exactly if the fields are; for a field of second order, `opcode` is of second order. -/
theorem C132_way {c : Interp} {mono : Bool} {ntiles : Nat} {gc : Bool} {atts : List (Option Str)} {r : Run} (h : run c mono ntiles gc atts = .ok r) :
    List.Forall₂ (fun a w => (w = c ∧ (a = none ∨ mono = true)) ∨ (mono = false ∧ (a = some "conserve_order1".toList ∧ w = .order1 ∨
      a = some "conserve_order2".toList ∧ w = .order2 ∨ a = some "bilinear".toList ∧ w = .bilinear))) atts r.ways ∧
    (∀ w ∈ r.ways, (w = .bilinear ↔ r.final = .bilinear) ∧ (w = .order2 → r.final = .order2)) := by
  unfold run at h
  split at h
  · cases h
  · split at h
    · cases h
    · cases hi : interps c mono atts with
      | error e => rw [hi] at h; cases h
      | ok l =>
        rw [hi] at h
        cases h
        unfold interps at hi
        cases hm : atts.mapM (interpOf c mono) with
        | error e => rw [hm] at hi; cases hi
        | ok l' =>
          rw [hm] at hi
          simp only at hi
          split at hi
          · cases hi
          · rename_i hmix
            cases hi
            refine ⟨(mapM_ways hm).imp ?_, ?_⟩
            · intro a w haw
              cases a with
              | none => left; cases haw; exact ⟨rfl, Or.inl rfl⟩
              | some s =>
                unfold interpOf at haw
                cases mono with
                | true => left; simp only [if_true] at haw; cases haw; exact ⟨rfl, Or.inr rfl⟩
                | false =>
                  right
                  refine ⟨rfl, ?_⟩
                  simp only [Bool.false_eq_true, if_false] at haw
                  split at haw
                  · rename_i hs; cases haw; exact Or.inl ⟨by rw [hs], rfl⟩
                  · split at haw
                    · rename_i hs; cases haw; exact Or.inr (Or.inl ⟨by rw [hs], rfl⟩)
                    · split at haw
                      · rename_i hs; cases haw; exact Or.inr (Or.inr ⟨by rw [hs], rfl⟩)
                      · cases haw
            · intro w hw
              have hmix' : ∀ w ∈ l, (w = .bilinear ↔ c = .bilinear) := by
                intro w hw
                simp only [List.any_cons, Bool.and_eq_true, Bool.or_eq_true, List.any_eq_true, beq_iff_eq, bne_iff_ne, not_and, not_or] at hmix
                constructor
                · intro hb
                  by_contra hc
                  exact (hmix (Or.inr ⟨w, hw, hb⟩)).1 hc
                · intro hc
                  by_contra hb
                  exact (hmix (Or.inl hc)).2 ⟨w, hw, hb⟩
              simp only
              refine ⟨?_, fun h2 => ?_⟩
              · rw [hmix' w hw]
                split
                · rename_i hc; rw [hc.1]; simp
                · rfl
              · subst h2
                cases c with
                | order1 => rw [if_pos ⟨rfl, List.any_eq_true.2 ⟨_, hw, rfl⟩⟩]
                | order2 => rw [if_neg (fun hc => by cases hc.1)]
                | bilinear => exact absurd ((hmix' _ hw).2 rfl) (by decide)

theorem run_final {c : Interp} {mono : Bool} {ntiles : Nat} {gc : Bool} {atts : List (Option Str)} {r : Run} (h : run c mono ntiles gc atts = .ok r) (hne : c ≠ .order1) :
    r.final = c := by
  unfold run at h
  split at h
  · cases h
  · split at h
    · cases h
    · cases hi : interps c mono atts with
      | error e => rw [hi] at h; cases h
      | ok l =>
        rw [hi] at h
        cases h
        simp only
        rw [if_neg (fun hh => hne hh.1)]

/-- **C132, second order.** If the command line does not say first order, or no attribute says second order: a field of second order has the lengths and vectors for its gradients, six
tiles, and is not clipped along great circles. Missing: first order on the command line with second order as attribute, see `C132_metric_wrong`. -/
theorem C132_second_partial {c : Interp} {mono : Bool} {ntiles : Nat} {gc : Bool} {atts : List (Option Str)} {r : Run} (h : run c mono ntiles gc atts = .ok r)
    (hc : c ≠ .order1 ∨ some "conserve_order2".toList ∉ atts) (h2 : .order2 ∈ r.ways) : r.metric = true ∧ ntiles = 6 ∧ gc = false := by
  have hway := C132_way h
  have h' := h
  have hc2 : c = .order2 := by
    have hmem : ∀ {atts : List (Option Str)} {l : List Interp}, List.Forall₂ (fun a w => (w = c ∧ (a = none ∨ mono = true)) ∨ (mono = false ∧ (a = some "conserve_order1".toList ∧ w = .order1 ∨
        a = some "conserve_order2".toList ∧ w = .order2 ∨ a = some "bilinear".toList ∧ w = .bilinear))) atts l → Interp.order2 ∈ l →
        c = .order2 ∨ some "conserve_order2".toList ∈ atts := by
      intro atts l hf hm
      induction hf with
      | nil => cases hm
      | @cons a w atts l hx _ ih =>
        rcases List.mem_cons.1 hm with rfl | hm
        · rcases hx with ⟨h, _⟩ | ⟨_, ⟨_, h⟩ | ⟨h, _⟩ | ⟨_, h⟩⟩
          · exact Or.inl h.symm
          · cases h
          · exact Or.inr (by rw [h]; exact List.mem_cons_self)
          · cases h
        · exact (ih hm).imp id (List.mem_cons_of_mem _)
    rcases hmem hway.1 h2 with h | h
    · exact h
    · have hne := hc.resolve_right (fun hn => hn h)
      have hf := (hway.2 _ h2)
      have e := hf.2 rfl
      have : r.final = c := run_final h' hne
      rw [← this, e]
  subst hc2
  unfold run at h
  split at h
  · cases h
  · rename_i ht
    split at h
    · cases h
    · rename_i hg
      cases hi : interps .order2 mono atts with
      | error e => rw [hi] at h; cases h
      | ok l =>
        rw [hi] at h
        cases h
        refine ⟨by simp, by_contra fun hh => ht ⟨hh, rfl⟩, ?_⟩
        cases gc
        · rfl
        · exact absurd ⟨rfl, by decide⟩ hg

/-- **C132 fails for first order on the command line and second order as attribute.** The field is remapped by second order without the lengths and vectors of the grid having been
made, and without the checks for six tiles and for great circles. -/
theorem C132_metric_wrong : run .order1 false 1 true [none, some "conserve_order2".toList] = .ok ⟨[.order1, .order2], .order2, false⟩ := by decide +kernel

/-! ### Examples -/

/-- `C132_value_partial`: entries with different numbers of blanks. -/
def faEntries : List Entry := [⟨"time".toList, "mean".toList, 1, 2⟩, ⟨"area".toList, "sum".toList, 0, 1⟩]

example : text faEntries = "time: mean   area:sum ".toList := by decide +kernel
example : ∀ e ∈ faEntries, e.Ok := by simp [faEntries, Entry.Ok]
example : cellMethods (some (text faEntries)) = .ok .sum := by decide +kernel
example : cellMeasures (some "area: cell_area volume: cell_vol".toList) = .ok (some (true, "cell_vol".toList)) := by decide +kernel

/-- `C132_file_partial`: six tiles, the file with the number of the tile exists. -/
example : measureFile ⟨"own.nc".toList, fun _ => false, some "cell_area: grid.nc".toList, fun f => f == "d/grid.tile3.nc".toList⟩ (some "d".toList) 6 2 "cell_area".toList =
    .ok "d/grid.tile3.nc".toList := by decide +kernel

/-- `C132_place`: an area with times and a daily cycle. -/
example : measureAxes ['T', 'N', 'Y', 'X'] = .ok (true, true, false) := by decide

end Verif.FieldAtts
