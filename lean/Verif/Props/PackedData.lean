import Verif.Spec.PackedData
import Mathlib.Tactic.Linarith
import Mathlib.Tactic.FieldSimp
import Mathlib.Tactic.NormNum
import Mathlib.Data.Rat.Floor
/-
C131: packed data.
-/
namespace Verif.PackedData
open Verif.Spec.PackedData

variable {F : Type} [Field F] [LinearOrder F] [IsStrictOrderedRing F] [FloorRing F]

theorem kept_missing {a : Atts F} {m : F} (h : marker a = some m) : (kept a).missing = m := by
  unfold marker at h
  unfold kept
  cases hm : a.missing with
  | some x => rw [hm] at h; simpa using h
  | none =>
    rw [hm] at h
    cases hf : a.fill with
    | some x => rw [hf] at h; simpa using h
    | none => rw [hf] at h; cases h

theorem kept_none {a : Atts F} (h : marker a = none) : (kept a).missing = 0 := by
  unfold marker at h
  unfold kept
  cases hm : a.missing with
  | some x => rw [hm] at h; cases h
  | none =>
    rw [hm] at h
    cases hf : a.fill with
    | some x => rw [hf] at h; cases h
    | none => rfl

/-- The value that stands for no value in the program, also if there is none in the file. -/
def mark (a : Atts F) : F := (marker a).getD 0

theorem kept_mark (a : Atts F) : (kept a).missing = mark a := by
  unfold mark
  cases h : marker a with
  | none => rw [kept_none h]; rfl
  | some m => rw [kept_missing h]; rfl

theorem kept_scale {a : Atts F} (hs : a.scale ≠ some 0) : (kept a).scale ≠ 0 ∧ scaleOf a = (kept a).scale ∨ (kept a).scale = 0 ∧ scaleOf a = 1 := by
  unfold kept scaleOf
  cases h : a.scale with
  | none => right; exact ⟨rfl, rfl⟩
  | some s => left; exact ⟨fun h0 => hs (by rw [h]; exact congrArg some h0), rfl⟩

theorem kept_offset (a : Atts F) : offsetOf a = (kept a).offset := by
  unfold kept offsetOf
  cases a.offset <;> rfl

/-- Unpacking of a stored value that is not the mark. -/
theorem unpack_eq {a : Atts F} (hs : a.scale ≠ some 0) {x : F} (h1 : x ≠ mark a) (h2 : x * scaleOf a ≠ mark a) : unpack (kept a) x = x * scaleOf a + offsetOf a := by
  unfold unpack
  rw [kept_mark, kept_offset]
  have hy : (if (kept a).scale ≠ 0 ∧ x ≠ mark a then x * (kept a).scale else x) = x * scaleOf a := by
    rcases kept_scale hs with ⟨h, e⟩ | ⟨h, e⟩
    · rw [if_pos ⟨h, h1⟩, e]
    · rw [if_neg (fun hc => hc.1 h), e, mul_one]
  simp only [hy]
  by_cases ho : (kept a).offset = 0
  · rw [if_neg (fun hc => hc.1 ho), ho, add_zero]
  · rw [if_pos ⟨ho, h2⟩]

/-- **C131, unpacking.** A stored value is seen as what it stands for, if neither the product with the scale nor the value meets the mark, and, without a mark in the
file, it is not 0 (or there is no offset). Missing: values that meet the mark, see `C131_meets_wrong` and `C131_zero_wrong`. -/
theorem C131_unpack_partial {a : Atts F} (hs : a.scale ≠ some 0) {x : F}
    (h : ∀ m, marker a = some m → x = m ∨ x * scaleOf a ≠ m ∧ x * scaleOf a + offsetOf a ≠ m) (h0 : marker a = none → offsetOf a = 0 ∨ x ≠ 0) :
    seen a (unpack (kept a) x) = value a x := by
  unfold seen value
  cases hm : marker a with
  | some m =>
    have hmark : mark a = m := by unfold mark; rw [hm]; rfl
    rcases h m hm with rfl | ⟨h1, h2⟩
    · have : unpack (kept a) x = x := by
        unfold unpack
        rw [kept_mark, hmark]
        simp
      rw [this]
      simp
    · by_cases hx : x = m
      · have : unpack (kept a) x = x := by
          unfold unpack
          rw [kept_mark, hmark, hx]
          simp
        rw [this, hx]
        simp
      · rw [unpack_eq hs (by rw [hmark]; exact hx) (by rw [hmark]; exact h1)]
        rw [if_neg (fun hc => h2 (Option.some.inj hc)), if_neg (fun hc => hx (Option.some.inj hc))]
  | none =>
    have hmark : mark a = 0 := by unfold mark; rw [hm]; rfl
    have : unpack (kept a) x = x * scaleOf a + offsetOf a := by
      by_cases hx : x = 0
      · have ho : offsetOf a = 0 := (h0 hm).resolve_right (fun h => h hx)
        rw [kept_offset] at ho
        unfold unpack
        rw [kept_mark, hmark, hx, kept_offset, ho]
        simp
      · have hne : scaleOf a ≠ 0 := by
          rcases kept_scale hs with ⟨h, e⟩ | ⟨h, e⟩
          · rw [e]; exact h
          · rw [e]; exact one_ne_zero
        exact unpack_eq hs (by rw [hmark]; exact hx) (by rw [hmark]; exact mul_ne_zero hx hne)
    rw [this]
    simp

/-- **C131, there and back.** A stored value that is remapped to itself is stored again, under the same conditions: the mark stays the mark. -/
theorem C131_back_partial {a : Atts F} (hs : a.scale ≠ some 0) {x : F} (h : x = mark a ∨ x * scaleOf a ≠ mark a ∧ x * scaleOf a + offsetOf a ≠ mark a) :
    pack (kept a) (unpack (kept a) x) = x := by
  by_cases hx : x = mark a
  · have : unpack (kept a) x = x := by
      unfold unpack
      rw [kept_mark, hx]
      simp
    rw [this]
    unfold pack
    rw [kept_mark, hx]
    simp
  · obtain ⟨h1, h2⟩ := h.resolve_left hx
    rw [unpack_eq hs hx h1]
    unfold pack
    rw [kept_mark, kept_offset]
    have hy : (if (kept a).offset ≠ 0 ∧ x * scaleOf a + (kept a).offset ≠ mark a then x * scaleOf a + (kept a).offset - (kept a).offset
        else x * scaleOf a + (kept a).offset) = x * scaleOf a := by
      by_cases ho : (kept a).offset = 0
      · rw [if_neg (fun hc => hc.1 ho), ho, add_zero]
      · rw [if_pos ⟨ho, by rw [← kept_offset]; exact h2⟩]
        linarith
    simp only [hy]
    rcases kept_scale hs with ⟨h, e⟩ | ⟨h, e⟩
    · rw [if_pos ⟨h, h1⟩, e]
      field_simp
    · rw [if_neg (fun hc => hc.1 h), e, mul_one]

theorem cast_int (n : Int) : cast (n : F) = n := by
  unfold cast
  split <;> simp

/-- **C131, there and back for whole numbers.** Under the conditions of `C131_back_partial` a stored whole number is stored again as it was. -/
theorem C131_back_int_partial {a : Atts F} (hs : a.scale ≠ some 0) {n : Int} (h : (n : F) = mark a ∨ n * scaleOf a ≠ mark a ∧ n * scaleOf a + offsetOf a ≠ mark a) {t : Kind}
    (ht : t ≠ .other) : stored t (kept a) (unpack (kept a) (n : F)) = some (n : F) := by
  have := C131_back_partial hs h
  cases t <;> simp [stored, this, cast_int] at ht ⊢

theorem cast_near (x : F) : |cast x - x| < 1 := by
  unfold cast
  by_cases h : 0 ≤ x
  · rw [if_pos h, abs_lt]
    have h1 := Int.floor_le x
    have h2 := Int.lt_floor_add_one x
    constructor <;> linarith
  · rw [if_neg h, abs_lt]
    have h1 := Int.le_ceil x
    have h2 := Int.ceil_lt_add_one x
    constructor <;> linarith

/-- **C131, precision.** What is stored for a value stands for a value that is less than one unit of the scale away: for whole numbers of any kind. -/
theorem C131_precision {a : Atts F} (hs : a.scale ≠ some 0) {y : F} (h1 : y ≠ mark a) (h2 : y - offsetOf a ≠ mark a) {t : Kind} {x : F} (hx : stored t (kept a) y = some x) :
    |x * scaleOf a + offsetOf a - y| < |scaleOf a| := by
  have hne : scaleOf a ≠ 0 := by
    rcases kept_scale hs with ⟨h, e⟩ | ⟨h, e⟩
    · rw [e]; exact h
    · rw [e]; exact one_ne_zero
  have hp : pack (kept a) y = (y - offsetOf a) / scaleOf a := by
    unfold pack
    rw [kept_mark]
    have hy : (if (kept a).offset ≠ 0 ∧ y ≠ mark a then y - (kept a).offset else y) = y - offsetOf a := by
      rw [kept_offset]
      by_cases ho : (kept a).offset = 0
      · rw [if_neg (fun hc => hc.1 ho), ho, sub_zero]
      · rw [if_pos ⟨ho, h1⟩]
    simp only [hy]
    rcases kept_scale hs with ⟨h, e⟩ | ⟨h, e⟩
    · rw [if_pos ⟨h, h2⟩, e]
    · rw [if_neg (fun hc => hc.1 h), e, div_one]
  have key : |x - (y - offsetOf a) / scaleOf a| < 1 := by
    rw [← hp]
    cases t with
    | short => cases hx; exact cast_near _
    | int => cases hx; exact cast_near _
    | float => cases hx; simp
    | double => cases hx; simp
    | other => cases hx
  have e : x * scaleOf a + offsetOf a - y = (x - (y - offsetOf a) / scaleOf a) * scaleOf a := by
    field_simp
    ring
  rw [e, abs_mul]
  have hpos : 0 < |scaleOf a| := abs_pos.2 hne
  calc _ < 1 * |scaleOf a| := mul_lt_mul_of_pos_right key hpos
    _ = _ := one_mul _

/-- **C131 fails where no missing value is given.** A stored 0 with offset 273 is read as 0, it stands for 273. -/
theorem C131_zero_wrong : let a : Atts ℚ := ⟨none, none, some (1/100), some 273⟩
    seen a (unpack (kept a) 0) = some 0 ∧ value a 0 = some 273 := by
  constructor
  · norm_num [seen, marker, unpack, kept]; intro h; cases h
  · norm_num [value, marker, scaleOf, offsetOf]; intro h; cases h

/-- **C131, flag.** A field is taken to have missing values exactly if it has one of the attributes, and the value is that of `missing_value` before `_FillValue`. -/
theorem C131_flag (a : Atts F) : ((kept a).hasMissing = true ↔ marker a ≠ none) ∧ ∀ m, marker a = some m → (kept a).missing = m := by
  refine ⟨?_, fun m hm => kept_missing hm⟩
  unfold kept marker
  cases a.missing <;> cases a.fill <;> simp

/-- **C131 fails for values that meet the missing value on the way.** With missing value -999, scale 1/10 and offset 50 the stored -9990 is taken for missing, it
stands for -949; and so is the stored -10490, which stands for -999. -/
theorem C131_meets_wrong : let a : Atts ℚ := ⟨some (-999), none, some (1/10), some 50⟩
    (seen a (unpack (kept a) (-9990)) = none ∧ value a (-9990) = some (-949)) ∧ seen a (unpack (kept a) (-10490)) = none ∧ value a (-10490) = some (-999) := by
  refine ⟨⟨?_, ?_⟩, ?_, ?_⟩ <;> norm_num [seen, value, marker, unpack, kept, scaleOf, offsetOf]

/-- **C131 fails to store the nearest whole number.** Values are cut off: 0.99 units are stored as 0. -/
theorem C131_nearest_wrong : let a : Atts ℚ := ⟨some (-999), none, some (1/10), none⟩
    stored .short (kept a) (99/1000) = some 0 ∧ |(1 : ℚ) * scaleOf a - 99/1000| < |(0 : ℚ) * scaleOf a - 99/1000| := by
  constructor
  · norm_num [stored, cast, pack, kept]
  · norm_num [scaleOf, abs_of_pos, abs_of_neg]

/-- The conditions of `C131_unpack_partial`: stored 1234 with scale 1/100, offset 273 and missing value -32768. -/
example : let a : Atts ℚ := ⟨some (-32768), none, some (1/100), some 273⟩
    seen a (unpack (kept a) 1234) = some (28534/100) ∧ seen a (unpack (kept a) (-32768)) = none ∧ stored .short (kept a) (28534/100) = some 1234 := by
  refine ⟨?_, ?_, ?_⟩ <;> norm_num [seen, marker, unpack, kept, stored, cast, pack]

end Verif.PackedData
