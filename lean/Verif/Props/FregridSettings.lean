import Verif.Props.FregridMeta
import Verif.Props.FregridDrive
/-
Property C129: which fields `get_input_metadata` accepts, and their settings; property C130: the settings are such as the main loop needs.
-/
namespace Verif.FregridMeta
open Verif.Spec.FregridMeta

variable {F : Type}

theorem fromLast_eq (ds : List (Dim F)) (k : Nat) : fromLast ds (k + 1) = ds.reverse[k]? := by
  unfold fromLast
  split
  · rename_i h
    rw [List.getElem?_reverse (by omega)]
    congr 1
    omega
  · rename_i h
    rw [List.getElem?_eq_none]
    simp only [List.length_reverse]
    omega

/-- A remapped field is accepted if its last two dimensions have the sizes of the grid, the options do not ask for more levels or times than there are, and
levels do not come fourth from the last. -/
def Acceptable (o : Opts) (nx ny : Nat) (ds : List (Dim F)) : Prop :=
  (∃ x y, ds.reverse[0]? = some x ∧ x.size = nx ∧ ds.reverse[1]? = some y ∧ y.size = ny) ∧
  (∀ z b e, ds.reverse[2]? = some z → z.cart = 'Z' → o.k = some (b, e) → e ≤ z.size) ∧
  (∀ z, ds.reverse[3]? = some z → z.cart ≠ 'Z') ∧
  (∀ t b e, ds[0]? = some t → t.cart = 'T' → o.l = some (b, e) → e ≤ t.size)

theorem sizes_ok (nx ny : Nat) (ds : List (Dim F)) :
    sizes nx ny ds = .ok () ↔ ∃ x y, ds.reverse[0]? = some x ∧ x.size = nx ∧ ds.reverse[1]? = some y ∧ y.size = ny := by
  unfold sizes
  rw [fromLast_eq ds 0, fromLast_eq ds 1]
  cases ds.reverse[0]? with
  | none => simp
  | some x =>
    cases ds.reverse[1]? with
    | none => by_cases h : x.size = nx <;> simp [h]
    | some y => by_cases h : x.size = nx <;> by_cases h' : y.size = ny <;> simp [h, h']

theorem levels_ok (o : Opts) (ds : List (Dim F)) (c : Cfg) :
    (∃ c', levels o ds c = .ok c') ↔ ∀ z b e, ds.reverse[2]? = some z → z.cart = 'Z' → o.k = some (b, e) → e ≤ z.size := by
  unfold levels
  rw [fromLast_eq ds 2]
  cases ds.reverse[2]? with
  | none => simp
  | some d =>
    by_cases hz : d.cart = 'Z'
    · cases hk : o.k with
      | none => simp [hz]
      | some p =>
        obtain ⟨b, e⟩ := p
        by_cases h : d.size < e
        · simp only [hz, if_true, h]
          constructor
          · rintro ⟨_, h'⟩; cases h'
          · intro h'; have := h' d b e rfl hz rfl; omega
        · simp only [hz, if_true, h, if_false]
          refine ⟨fun _ z b' e' hz' _ he => ?_, fun _ => ⟨_, rfl⟩⟩
          cases hz'; cases he; omega
    · by_cases hn : d.cart = 'N' <;> simp [hz, hn] <;> (rintro z b e rfl hc; exact absurd hc hz)

theorem fourth_ok (ds : List (Dim F)) (c : Cfg) : (∃ c', fourth ds c = .ok c') ↔ ∀ z, ds.reverse[3]? = some z → z.cart ≠ 'Z' := by
  unfold fourth
  rw [fromLast_eq ds 3]
  cases ds.reverse[3]? with
  | none => simp
  | some d =>
    by_cases hz : d.cart = 'Z'
    · simp [hz]
    · by_cases hn : d.cart = 'N' <;> simp [hz, hn]

theorem times_ok (o : Opts) (ds : List (Dim F)) (c : Cfg) :
    (∃ c', times o ds c = .ok c') ↔ ∀ t b e, ds[0]? = some t → t.cart = 'T' → o.l = some (b, e) → e ≤ t.size := by
  unfold times
  rw [List.head?_eq_getElem?]
  cases ds[0]? with
  | none => simp
  | some d =>
    by_cases hz : d.cart = 'T'
    · cases hk : o.l with
      | none => simp [hz]
      | some p =>
        obtain ⟨b, e⟩ := p
        by_cases h : d.size < e
        · simp only [hz, if_true, h]
          constructor
          · rintro ⟨_, h'⟩; cases h'
          · intro h'; have := h' d b e rfl hz rfl; omega
        · simp only [hz, if_true, h, if_false]
          refine ⟨fun _ z b' e' hz' _ he => ?_, fun _ => ⟨_, rfl⟩⟩
          cases hz'; cases he; omega
    · simp [hz]
      rintro z b e rfl hc
      exact absurd hc hz

/-- The steps of `config`. -/
theorem config_steps {o : Opts} {nx ny nt : Nat} {v : Var F} (hr : v.regrid = true) (c : Cfg) :
    config o nx ny v nt = .ok c ↔ sizes nx ny v.dims = .ok () ∧ ∃ c1 c2, levels o v.dims { nt := nt } = .ok c1 ∧ fourth v.dims c1 = .ok c2 ∧ times o v.dims c2 = .ok c := by
  unfold config
  rw [if_pos hr]
  simp only [bind, Except.bind]
  cases h0 : sizes nx ny v.dims with
  | error e => simp
  | ok u =>
    cases h1 : levels o v.dims { nt := nt } with
    | error e => simp
    | ok c1 =>
      cases h2 : fourth v.dims c1 with
      | error e => simp [h2]
      | ok c2 => simp [h2]

/-- C129: the program goes on with a field that is to be remapped exactly if the field fits the grid and the options. -/
theorem C129_accepted (o : Opts) (nx ny nt : Nat) (v : Var F) (hr : v.regrid = true) :
    (∃ c, config o nx ny v nt = .ok c) ↔ Acceptable o nx ny v.dims := by
  unfold Acceptable
  rw [← sizes_ok, ← levels_ok o v.dims { nt := nt }]
  constructor
  · rintro ⟨c, h⟩
    obtain ⟨h0, c1, c2, h1, h2, h3⟩ := (config_steps hr c).1 h
    exact ⟨h0, ⟨c1, h1⟩, (fourth_ok _ c1).1 ⟨c2, h2⟩, (times_ok _ _ c2).1 ⟨c, h3⟩⟩
  · rintro ⟨h0, ⟨c1, h1⟩, h2, h3⟩
    obtain ⟨c2, h2⟩ := (fourth_ok _ c1).2 h2
    obtain ⟨c, h3⟩ := (times_ok o _ c2).2 h3
    exact ⟨c, (config_steps hr c).2 ⟨h0, c1, c2, h1, h2, h3⟩⟩

/-- Settings that belong to the dimensions of a field, where levels and times are those asked for. -/
def Settings (o : Opts) (ds : List (Dim F)) (nt : Nat) (c : Cfg) : Prop :=
  (∀ z, ds.reverse[2]? = some z → z.cart = 'Z' → c.kstart = first o z ∧ c.nz = count o z ∧ (0 < z.size → c.kend + 1 = first o z + count o z)) ∧
  ((∀ z, ds.reverse[2]? = some z → z.cart ≠ 'Z') → c.kstart = 0 ∧ c.kend = 0 ∧ c.nz = 1) ∧
  (∀ t, ds[0]? = some t → t.cart = 'T' → c.lstart = first o t ∧ c.nt = count o t ∧ (0 < t.size → c.lend + 1 = first o t + count o t)) ∧
  ((∀ t, ds[0]? = some t → t.cart ≠ 'T') → c.lstart = 0 ∧ c.lend = 0 ∧ c.nt = nt) ∧
  (∀ n, ds.reverse[3]? = some n → n.cart = 'N' → c.nn = n.size) ∧
  ((∀ n, ds.reverse[3]? = some n → n.cart ≠ 'N') →
    (∀ n, ds.reverse[2]? = some n → n.cart = 'N' → c.nn = n.size) ∧ ((∀ n, ds.reverse[2]? = some n → n.cart ≠ 'N') → c.nn = 1))

/-- What `levels` does. -/
theorem levels_set {o : Opts} (ho : Proper o) {ds : List (Dim F)} {c c' : Cfg} (h : levels o ds c = .ok c') :
    (∀ z, ds.reverse[2]? = some z → z.cart = 'Z' → c'.kstart = first o z ∧ c'.nz = count o z ∧ (0 < z.size → c'.kend + 1 = first o z + count o z)) ∧
    ((∀ z, ds.reverse[2]? = some z → z.cart ≠ 'Z') → c'.kstart = c.kstart ∧ c'.kend = c.kend ∧ c'.nz = c.nz) ∧
    (c'.lstart = c.lstart ∧ c'.lend = c.lend ∧ c'.nt = c.nt) ∧
    (∀ n, ds.reverse[2]? = some n → n.cart = 'N' → c'.nn = n.size) ∧ ((∀ n, ds.reverse[2]? = some n → n.cart ≠ 'N') → c'.nn = c.nn) := by
  unfold levels at h
  rw [fromLast_eq ds 2] at h
  cases hd : ds.reverse[2]? with
  | none => rw [hd] at h; cases h; simp
  | some d =>
    rw [hd] at h
    simp only at h
    by_cases hz : d.cart = 'Z'
    · have hN : d.cart ≠ 'N' := by rw [hz]; decide
      have hopt : option o d = o.k := by unfold option; rw [hz]; simp
      rw [if_pos hz] at h
      cases hk : o.k with
      | none =>
        rw [hk] at h; cases h
        refine ⟨fun z hz' _ => ?_, fun h' => absurd hz (h' d rfl), ⟨rfl, rfl, rfl⟩, fun n hn hc => ?_, fun _ => rfl⟩
        · cases hz'
          simp only [first, count, hopt, hk]
          exact ⟨trivial, trivial, fun _ => by omega⟩
        · cases hn; exact absurd hc hN
      | some p =>
        obtain ⟨b, e⟩ := p
        rw [hk] at h
        simp only at h
        split at h
        · cases h
        · cases h
          obtain ⟨hb, hbe⟩ := ho.1 b e hk
          refine ⟨fun z hz' _ => ?_, fun h' => absurd hz (h' d rfl), ⟨rfl, rfl, rfl⟩, fun n hn hc => ?_, fun _ => rfl⟩
          · cases hz'
            simp only [first, count, hopt, hk]
            refine ⟨trivial, trivial, fun _ => ?_⟩
            omega
          · cases hn; exact absurd hc hN
    · rw [if_neg hz] at h
      by_cases hn : d.cart = 'N'
      · rw [if_pos hn] at h; cases h
        exact ⟨fun z hz' hc => by cases hz'; exact absurd hc hz, fun _ => ⟨rfl, rfl, rfl⟩, ⟨rfl, rfl, rfl⟩, fun n hn' _ => by cases hn'; rfl,
          fun h' => absurd hn (h' d rfl)⟩
      · rw [if_neg hn] at h; cases h
        exact ⟨fun z hz' hc => by cases hz'; exact absurd hc hz, fun _ => ⟨rfl, rfl, rfl⟩, ⟨rfl, rfl, rfl⟩, fun n hn' hc => by cases hn'; exact absurd hc hn,
          fun _ => rfl⟩

/-- What `fourth` does. -/
theorem fourth_set {ds : List (Dim F)} {c c' : Cfg} (h : fourth ds c = .ok c') :
    (c'.kstart = c.kstart ∧ c'.kend = c.kend ∧ c'.nz = c.nz ∧ c'.lstart = c.lstart ∧ c'.lend = c.lend ∧ c'.nt = c.nt) ∧
    (∀ n, ds.reverse[3]? = some n → n.cart = 'N' → c'.nn = n.size) ∧ ((∀ n, ds.reverse[3]? = some n → n.cart ≠ 'N') → c'.nn = c.nn) := by
  unfold fourth at h
  rw [fromLast_eq ds 3] at h
  cases hd : ds.reverse[3]? with
  | none => rw [hd] at h; cases h; simp
  | some d =>
    rw [hd] at h
    simp only at h
    by_cases hz : d.cart = 'Z'
    · rw [if_pos hz] at h; cases h
    · rw [if_neg hz] at h
      by_cases hn : d.cart = 'N'
      · rw [if_pos hn] at h; cases h
        exact ⟨⟨rfl, rfl, rfl, rfl, rfl, rfl⟩, fun n hn' _ => by cases hn'; rfl, fun h' => absurd hn (h' d rfl)⟩
      · rw [if_neg hn] at h; cases h
        exact ⟨⟨rfl, rfl, rfl, rfl, rfl, rfl⟩, fun n hn' hc => by cases hn'; exact absurd hc hn, fun _ => rfl⟩

/-- What `times` does. -/
theorem times_set {o : Opts} (ho : Proper o) {ds : List (Dim F)} {c c' : Cfg} (h : times o ds c = .ok c') :
    (c'.kstart = c.kstart ∧ c'.kend = c.kend ∧ c'.nz = c.nz ∧ c'.nn = c.nn) ∧
    (∀ t, ds[0]? = some t → t.cart = 'T' → c'.lstart = first o t ∧ c'.nt = count o t ∧ (0 < t.size → c'.lend + 1 = first o t + count o t)) ∧
    ((∀ t, ds[0]? = some t → t.cart ≠ 'T') → c'.lstart = c.lstart ∧ c'.lend = c.lend ∧ c'.nt = c.nt) := by
  unfold times at h
  rw [List.head?_eq_getElem?] at h
  cases hd : ds[0]? with
  | none => rw [hd] at h; cases h; simp
  | some d =>
    rw [hd] at h
    simp only at h
    by_cases hz : d.cart = 'T'
    · have hopt : option o d = o.l := by unfold option; rw [hz]; simp
      rw [if_pos hz] at h
      cases hk : o.l with
      | none =>
        rw [hk] at h; cases h
        refine ⟨⟨rfl, rfl, rfl, rfl⟩, fun z hz' _ => ?_, fun h' => absurd hz (h' d rfl)⟩
        cases hz'
        simp only [first, count, hopt, hk]
        exact ⟨trivial, trivial, fun _ => by omega⟩
      | some p =>
        obtain ⟨b, e⟩ := p
        rw [hk] at h
        simp only at h
        split at h
        · cases h
        · cases h
          obtain ⟨hb, hbe⟩ := ho.2 b e hk
          refine ⟨⟨rfl, rfl, rfl, rfl⟩, fun z hz' _ => ?_, fun h' => absurd hz (h' d rfl)⟩
          cases hz'
          simp only [first, count, hopt, hk]
          refine ⟨trivial, trivial, fun _ => ?_⟩
          omega
    · rw [if_neg hz] at h; cases h
      exact ⟨⟨rfl, rfl, rfl, rfl⟩, fun z hz' hc => by cases hz'; exact absurd hc hz, fun _ => ⟨rfl, rfl, rfl⟩⟩

/-- C129: settings of an accepted field. First and last level and time belong to the options; the size of the fourth axis is that of the dimension of kind N,
the one further left if there are two. -/
theorem C129_settings {o : Opts} (ho : Proper o) {nx ny nt : Nat} {v : Var F} (hr : v.regrid = true) {c : Cfg} (h : config o nx ny v nt = .ok c) :
    Settings o v.dims nt c := by
  obtain ⟨_, c1, c2, h1, h2, h3⟩ := (config_steps hr c).1 h
  obtain ⟨a1, a2, ⟨a3, a4, a5⟩, a6, a7⟩ := levels_set ho h1
  obtain ⟨⟨b1, b2, b3, b4, b5, b6⟩, b7, b8⟩ := fourth_set h2
  obtain ⟨⟨d1, d2, d3, d4⟩, d5, d6⟩ := times_set ho h3
  refine ⟨fun z hz hc => ?_, fun hz => ?_, d5, fun ht => ?_, fun n hn hc => ?_, fun hn => ⟨fun n hn' hc => ?_, fun hn' => ?_⟩⟩
  · obtain ⟨e1, e2, e3⟩ := a1 z hz hc
    exact ⟨by rw [d1, b1, e1], by rw [d3, b3, e2], fun hp => by rw [d2, b2]; exact e3 hp⟩
  · obtain ⟨e1, e2, e3⟩ := a2 hz
    exact ⟨by rw [d1, b1, e1], by rw [d2, b2, e2], by rw [d3, b3, e3]⟩
  · obtain ⟨e1, e2, e3⟩ := d6 ht
    exact ⟨by rw [e1, b4, a3], by rw [e2, b5, a4], by rw [e3, b6, a5]⟩
  · rw [d4, b7 n hn hc]
  · rw [d4, b8 hn, a6 n hn' hc]
  · rw [d4, b8 hn, a7 hn']

/-- A field with times, members, levels, rows and columns; levels 2 to 4 and times 3 to 3 are asked for. -/
def settingsEx : Var Nat :=
  ⟨"t", true, [⟨"time", 6, 'T', id, 0, id⟩, ⟨"m", 5, 'N', id, 0, id⟩, ⟨"lev", 4, 'Z', id, 0, id⟩, ⟨"y", 3, 'Y', id, 0, id⟩, ⟨"x", 2, 'X', id, 0, id⟩]⟩

example : config ⟨some (2, 4), some (3, 3)⟩ 2 3 settingsEx 1 = .ok ⟨3, 5, 1, 3, 2, 2, 1⟩ := by decide
example : config ⟨some (2, 5), some (3, 3)⟩ 2 3 settingsEx 1 = .error .level := by decide

end Verif.FregridMeta

namespace Verif.FregridDrive
open Verif.FregridMeta Verif.Spec.FregridMeta

variable {F : Type}

/-- What the main loop gets for a field. -/
def fldOf (v : Var F) (c : Cfg) (fl : Bool × Bool × Bool) : Fld :=
  { regrid := v.regrid, hasT := fl.1, hasN := fl.2.1, hasZ := fl.2.2, nn := c.nn, nz := c.nz, kstart := c.kstart, kend := c.kend, lstart := c.lstart }

/-- C130: the settings of an accepted field whose dimensions are not empty are such as `C130_once`, `C130_places` and others ask for. -/
theorem C130_settings {o : Opts} (ho : Proper o) {nx ny nt : Nat} {v : Var F} (hr : v.regrid = true) {c : Cfg} (h : config o nx ny v nt = .ok c)
    (hp : ∀ d ∈ v.dims, 0 < d.size) {fl : Bool × Bool × Bool} (hf : flags (v.dims.map (·.cart)) = some fl) : Set (fldOf v c fl) := by
  obtain ⟨s1, s2, _⟩ := C129_settings ho hr h
  have hz : fl.2.2 = true ↔ ∃ z, v.dims.reverse[2]? = some z ∧ z.cart = 'Z' := by
    have e : fl.2.2 = decide ((if 3 ≤ (v.dims.map (·.cart)).length then (v.dims.map (·.cart))[(v.dims.map (·.cart)).length - 3]? else none) = some 'Z') := by
      unfold flags at hf
      generalize (if 3 ≤ (v.dims.map (·.cart)).length then (v.dims.map (·.cart))[(v.dims.map (·.cart)).length - 3]? else none) = x at hf ⊢
      generalize (if 4 ≤ (v.dims.map (·.cart)).length then (v.dims.map (·.cart))[(v.dims.map (·.cart)).length - 4]? else none) = y at hf
      simp only at hf
      by_cases hy : y = some 'Z'
      · rw [if_pos hy] at hf; cases hf
      · rw [if_neg hy] at hf; cases hf; rfl
    rw [e, ← fromLast_eq v.dims 2]
    unfold fromLast
    simp only [List.length_map, List.getElem?_map]
    by_cases h3 : 3 ≤ v.dims.length
    · simp [h3]
    · simp [h3]
  unfold Set fldOf
  simp only
  by_cases hc : ∃ z, v.dims.reverse[2]? = some z ∧ z.cart = 'Z'
  · obtain ⟨z, hz1, hz2⟩ := hc
    obtain ⟨e1, e2, e3⟩ := s1 z hz1 hz2
    have hm : z ∈ v.dims := List.mem_reverse.1 (List.mem_of_getElem? hz1)
    have := e3 (hp z hm)
    refine ⟨by rw [e1, e2]; exact this, fun hfz => ?_⟩
    rw [hz.2 ⟨z, hz1, hz2⟩] at hfz
    cases hfz
  · obtain ⟨e1, e2, e3⟩ := s2 (fun z h1 h2 => hc ⟨z, h1, h2⟩)
    exact ⟨by rw [e1, e2, e3], fun _ => ⟨e1, e3⟩⟩

example : flags (settingsEx.dims.map (·.cart)) = some (true, true, true) := by decide

end Verif.FregridDrive
