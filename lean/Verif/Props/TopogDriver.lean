import Verif.Model.TopogDriver
import Verif.Props.Provenance
import Verif.Props.Regional
import Mathlib.Data.List.Nodup
/-
C143: options, tiles and definitions of make_topog.
-/
namespace Verif
namespace Spec.TopogDriver
open Verif.TopogDriver

/-- Names of the kinds of topography, as in the manual. -/
def nameOf : Kind → String
  | .rectangular => "rectangular_basin"
  | .gaussian => "gaussian"
  | .bowl => "bowl"
  | .idealized => "idealized"
  | .realistic => "realistic"
  | .boxChannel => "box_channel"
  | .dome => "dome"

/-- What the manual asks for beside the name. -/
def Complete (o : Options) : Kind → Prop
  | .realistic => o.topogFile ≠ none ∧ o.topogField ≠ none
  | .boxChannel => 0 < o.jwestSouth ∧ o.jwestSouth ≤ o.jwestNorth ∧ 0 < o.jeastSouth ∧ o.jeastSouth ≤ o.jeastNorth
  | _ => True

end Spec.TopogDriver

open TopogDriver Provenance Spec.TopogDriver

private theorem kind_ok (o : Options) (t : Word) (k : Kind) : kind o t = .ok k ↔ t = (nameOf k).toList ∧ Complete o k := by
  constructor
  · intro h
    unfold kind at h
    by_cases h1 : t = "rectangular_basin".toList
    · rw [if_pos h1] at h
      rw [← Except.ok.inj h]
      exact ⟨h1, trivial⟩
    rw [if_neg h1] at h
    by_cases h2 : t = "gaussian".toList
    · rw [if_pos h2] at h
      rw [← Except.ok.inj h]
      exact ⟨h2, trivial⟩
    rw [if_neg h2] at h
    by_cases h3 : t = "bowl".toList
    · rw [if_pos h3] at h
      rw [← Except.ok.inj h]
      exact ⟨h3, trivial⟩
    rw [if_neg h3] at h
    by_cases h4 : t = "idealized".toList
    · rw [if_pos h4] at h
      rw [← Except.ok.inj h]
      exact ⟨h4, trivial⟩
    rw [if_neg h4] at h
    by_cases h5 : t = "realistic".toList
    · rw [if_pos h5] at h
      by_cases hc : o.topogFile.isNone ∨ o.topogField.isNone
      · rw [if_pos hc] at h
        cases h
      · rw [if_neg hc] at h
        rw [← Except.ok.inj h]
        refine ⟨h5, fun he => hc (.inl ?_), fun he => hc (.inr ?_)⟩ <;> rw [he] <;> rfl
    rw [if_neg h5] at h
    by_cases h6 : t = "box_channel".toList
    · rw [if_pos h6] at h
      split_ifs at h with hc
      rw [← Except.ok.inj h]
      refine ⟨h6, ?_⟩
      show _ ∧ _ ∧ _ ∧ _
      omega
    rw [if_neg h6] at h
    by_cases h7 : t = "dome".toList
    · rw [if_pos h7] at h
      rw [← Except.ok.inj h]
      exact ⟨h7, trivial⟩
    rw [if_neg h7] at h
    cases h
  · rintro ⟨h, hc⟩
    subst h
    cases k with
    | rectangular => rfl
    | gaussian => rfl
    | bowl => rfl
    | idealized => rfl
    | dome => rfl
    | realistic =>
      show (if o.topogFile.isNone ∨ o.topogField.isNone then _ else _) = _
      rw [if_neg]
      rintro (h | h)
      · exact hc.1 (Option.isNone_iff_eq_none.mp h)
      · exact hc.2 (Option.isNone_iff_eq_none.mp h)
    | boxChannel =>
      show (if o.jwestSouth ≤ 0 ∨ o.jwestNorth ≤ 0 ∨ o.jeastSouth ≤ 0 ∨ o.jeastNorth ≤ 0 ∨ o.jwestNorth < o.jwestSouth ∨ o.jeastNorth < o.jeastSouth then _ else _) = _
      rw [if_neg]
      have := hc
      unfold Complete at this
      omega

private theorem copied_ok (o : Option Word) (d w : Word) (hd : d.length ≤ 31) : copied o d = .ok w ↔ w = o.getD d ∧ w.length ≤ 31 := by
  cases o with
  | none =>
    constructor
    · intro h
      rw [← Except.ok.inj h]
      exact ⟨rfl, hd⟩
    · rintro ⟨rfl, _⟩
      rfl
  | some v =>
    unfold copied
    simp only [Option.getD_some]
    constructor
    · intro h
      split_ifs at h with hc
      rw [← Except.ok.inj h]
      exact ⟨rfl, by omega⟩
    · rintro ⟨rfl, h⟩
      rw [if_neg (by omega)]

/-- The options are accepted exactly if there is a mosaic, the kind of topography is one of the manual and has what it needs, refinement is 2, levels are asked for realistic
topography only, and the name of the output file has at most 31 characters. -/
theorem C143_options_partial (o : Options) (k : Kind) (f : Word) : options o = .ok (k, f) ↔
    o.mosaic ≠ none ∧ o.type.getD "realistic".toList = (nameOf k).toList ∧ Complete o k ∧ o.xRefine = 2 ∧ o.yRefine = 2 ∧ (o.vgrid ≠ none → k = .realistic) ∧
      f = o.output.getD "topog.nc".toList ∧ f.length ≤ 31 := by
  have hname : ∀ k : Kind, (nameOf k).toList.length ≤ 31 := by intro k; cases k <;> decide
  have hreal : ∀ k : Kind, (nameOf k).toList = "realistic".toList ↔ k = .realistic := by intro k; cases k <;> decide
  constructor
  · intro h
    unfold options at h
    cases ht : copied o.type "realistic".toList with
    | error e => rw [ht] at h; cases h
    | ok t =>
      cases hf : copied o.output "topog.nc".toList with
      | error e => rw [ht, hf] at h; cases h
      | ok f' =>
        rw [ht, hf] at h
        change (if o.mosaic.isNone then _ else _) = _ at h
        by_cases h1 : o.mosaic.isNone = true
        · rw [if_pos h1] at h; cases h
        rw [if_neg h1] at h
        by_cases h2 : o.xRefine ≠ 2 ∨ o.yRefine ≠ 2
        · rw [if_pos h2] at h; cases h
        rw [if_neg h2] at h
        by_cases h3 : o.vgrid.isSome ∧ t ≠ "realistic".toList
        · rw [if_pos h3] at h; cases h
        rw [if_neg h3] at h
        cases hk : kind o t with
        | error e => rw [hk] at h; cases h
        | ok k' =>
          rw [hk] at h
          have he := Except.ok.inj h
          have e1 : k' = k := congrArg Prod.fst he
          have e2 : f' = f := congrArg Prod.snd he
          subst e1 e2
          obtain ⟨a1, a2⟩ := (kind_ok o t k').mp hk
          obtain ⟨b1, _⟩ := (copied_ok _ _ _ (by decide)).mp ht
          obtain ⟨c1, c2⟩ := (copied_ok _ _ _ (by decide)).mp hf
          refine ⟨fun hm => h1 (by rw [hm]; rfl), by rw [← b1, a1], a2, by omega, by omega, ?_, c1, c2⟩
          intro hv
          by_contra hr
          refine h3 ⟨Option.isSome_iff_ne_none.mpr hv, ?_⟩
          rw [a1]
          exact fun hh => hr ((hreal k').mp hh)
  · rintro ⟨h1, h2, h3, h4, h5, h6, h7, h8⟩
    have ht : copied o.type "realistic".toList = .ok (nameOf k).toList := (copied_ok _ _ _ (by decide)).mpr ⟨h2.symm, hname k⟩
    have hf : copied o.output "topog.nc".toList = .ok f := (copied_ok _ _ _ (by decide)).mpr ⟨h7, h8⟩
    have hk : kind o (nameOf k).toList = .ok k := (kind_ok o _ k).mpr ⟨rfl, h3⟩
    unfold options
    rw [ht, hf]
    show (if o.mosaic.isNone then _ else _) = _
    rw [if_neg (fun hc => h1 (Option.isNone_iff_eq_none.mp hc)), if_neg (by omega), if_neg, hk]
    · rfl
    · rintro ⟨hv, hr⟩
      exact hr ((hreal k).mpr (h6 (Option.isSome_iff_ne_none.mp hv)))

/-- A name of the output file with 32 characters or more is copied beyond its array. -/
theorem C143_output_wrong (args : List Word) (o : Options) (ts : List Tile) (w : Word) (h : o.output = some w) (hl : 31 < w.length) : main args o ts = .error .undefined := by
  have hf : copied o.output "topog.nc".toList = .error .undefined := by
    rw [h]
    unfold copied
    simp only
    rw [if_pos (by omega)]
  have : options o = .error .undefined := by
    unfold options
    rw [hf]
    cases ht : copied o.type "realistic".toList with
    | error e =>
      unfold copied at ht
      cases hty : o.type with
      | none => rw [hty] at ht; cases ht
      | some v =>
        rw [hty] at ht
        simp only at ht
        split_ifs at ht
        rw [← Except.error.inj ht]
        rfl
    | ok t => rfl
  unfold main
  rw [this]
  rfl

private theorem tiles_ok (vg : Bool) (nt : Nat) : ∀ (ts : List Tile) (n : Nat) (flag : Bool), (∀ t ∈ ts, t.nx % 2 = 0 ∧ t.ny % 2 = 0) →
    (∀ t ∈ ts, readGca t.atts = .ok false) → ∃ ds, tiles vg nt n flag ts = .ok (ds, if ts = [] then flag else false)
  | [], n, flag, _, _ => ⟨[], by simp [tiles]⟩
  | t :: ts, n, flag, h1, h2 => by
    obtain ⟨ds, hd⟩ := tiles_ok vg nt ts (n + 1) false (fun t ht => h1 t (List.mem_cons_of_mem _ ht)) (fun t ht => h2 t (List.mem_cons_of_mem _ ht))
    have e := h1 t List.mem_cons_self
    refine ⟨define vg nt n t :: ds, ?_⟩
    rw [tiles, if_neg (by omega), h2 t List.mem_cons_self]
    simp only [ne_eq, not_true_eq_false, and_false, if_false]
    rw [hd]
    simp

private theorem tiles_get (vg : Bool) (nt : Nat) : ∀ (ts : List Tile) (n : Nat) (flag : Bool) (ds : List Def) (f : Bool), tiles vg nt n flag ts = .ok (ds, f) →
    ds.length = ts.length ∧ (∀ i t, ts[i]? = some t → t.nx % 2 = 0 ∧ t.ny % 2 = 0 ∧ ds[i]? = some (define vg nt (n + i) t) ∧ (0 < n + i → readGca t.atts = .ok false)) ∧
      (∀ t, ts.getLast? = some t → readGca t.atts = .ok f)
  | [], n, flag, ds, f, h => by
    rw [tiles] at h
    have e := congrArg Prod.fst (Except.ok.inj h)
    have e' : ds = [] := e.symm
    subst e'
    refine ⟨rfl, ?_, ?_⟩
    · intro i t hi
      simp at hi
    · intro t ht
      simp at ht
  | t :: ts, n, flag, ds, f, h => by
    rw [tiles] at h
    by_cases hp : t.nx % 2 ≠ 0 ∨ t.ny % 2 ≠ 0
    · rw [if_pos hp] at h
      cases h
    rw [if_neg hp] at h
    cases hr : readGca t.atts with
    | error e => rw [hr] at h; cases h
    | ok now =>
      rw [hr] at h
      simp only at h
      by_cases hq : 0 < n ∧ now ≠ false
      · rw [if_pos hq] at h
        cases h
      rw [if_neg hq] at h
      cases ht : tiles vg nt (n + 1) now ts with
      | error e => rw [ht] at h; cases h
      | ok r =>
        obtain ⟨ds', f'⟩ := r
        rw [ht] at h
        simp only at h
        have he := Except.ok.inj h
        have e1 : define vg nt n t :: ds' = ds := congrArg Prod.fst he
        have e2 : f' = f := congrArg Prod.snd he
        subst e1 e2
        obtain ⟨g1, g2, g3⟩ := tiles_get vg nt ts (n + 1) now ds' f' ht
        refine ⟨by rw [List.length_cons, List.length_cons, g1], ?_, ?_⟩
        · intro i u hu
          cases i with
          | zero =>
            rw [List.getElem?_cons_zero] at hu
            rw [← Option.some.inj hu]
            refine ⟨by omega, by omega, rfl, ?_⟩
            intro hn
            have : now = false := by
              by_contra hc
              exact hq ⟨by omega, hc⟩
            rw [hr, this]
          | succ i =>
            rw [List.getElem?_cons_succ] at hu ⊢
            have := g2 i u hu
            rw [show n + 1 + i = n + (i + 1) by omega] at this
            exact this
        · intro u hu
          cases ts with
          | nil =>
            rw [List.getLast?_singleton] at hu
            rw [← Option.some.inj hu, hr]
            rw [tiles] at ht
            have : now = f' := congrArg Prod.snd (Except.ok.inj ht)
            rw [this]
          | cons v vs =>
            rw [List.getLast?_cons_cons] at hu
            exact g3 u hu

private theorem main_parts {args : List Word} {o : Options} {ts : List Tile} {h : Header} (hm : main args o ts = .ok h) :
    ∃ k f hist ds g, options o = .ok (k, f) ∧ history (size .topog) args = .ok hist ∧ tiles o.vgrid.isSome ts.length 0 false ts = .ok (ds, g) ∧
      h = ⟨k, f, ds, provenance (some hist) g⟩ := by
  unfold main at hm
  cases ho : options o with
  | error e => rw [ho] at hm; cases hm
  | ok kf =>
    obtain ⟨k, f⟩ := kf
    rw [ho] at hm
    cases hh : history (size .topog) args with
    | error e => rw [hh] at hm; cases hm
    | ok hist =>
      rw [hh] at hm
      cases ht : tiles o.vgrid.isSome ts.length 0 false ts with
      | error e => rw [ht] at hm; cases hm
      | ok r =>
        obtain ⟨ds, g⟩ := r
        rw [ht] at hm
        exact ⟨k, f, hist, ds, g, rfl, rfl, rfl, (Except.ok.inj hm).symm⟩

/-- A mosaic without the great circle algorithm: with good options and a short command line the program goes on exactly if the supergrid of every tile has even sizes. -/
theorem C143_tiles_partial {args : List Word} {o : Options} {k : Kind} {f hist : Word} (ts : List Tile) (ho : options o = .ok (k, f))
    (hh : history (size .topog) args = .ok hist) (hg : ∀ t ∈ ts, readGca t.atts = .ok false) :
    (∃ h, main args o ts = .ok h) ↔ ∀ t ∈ ts, t.nx % 2 = 0 ∧ t.ny % 2 = 0 := by
  constructor
  · rintro ⟨h, hm⟩ t ht
    obtain ⟨_, _, _, ds, g, _, _, hd, _⟩ := main_parts hm
    obtain ⟨i, hi⟩ := List.mem_iff_getElem?.mp ht
    have := (tiles_get _ _ _ _ _ _ _ hd).2.1 i t hi
    exact ⟨this.1, this.2.1⟩
  · intro he
    obtain ⟨ds, hd⟩ := tiles_ok o.vgrid.isSome ts.length ts 0 false he hg
    refine ⟨⟨k, f, ds, provenance (some hist) (if ts = [] then false else false)⟩, ?_⟩
    unfold main
    rw [ho, hh, hd]
    rfl

/-- The definitions of the output file: one depth for each tile, of half the size of the supergrid, under the names of the manual. -/
theorem C143_defs {args : List Word} {o : Options} {ts : List Tile} {h : Header} (hm : main args o ts = .ok h) :
    h.defs.length = ts.length ∧ ∀ i t, ts[i]? = some t → ∃ d, h.defs[i]? = some d ∧ 2 * d.nx = t.nx ∧ 2 * d.ny = t.ny ∧
      (ts.length = 1 → d.dimX = "nx".toList ∧ d.dimY = "ny".toList ∧ d.depth = "depth".toList ∧ ∀ l, d.level = some l → l = "num_levels".toList) ∧
      (ts.length ≠ 1 → d.dimX = "nx_tile".toList ++ Nat.toDigits 10 (i + 1) ∧ d.dimY = "ny_tile".toList ++ Nat.toDigits 10 (i + 1) ∧
        d.depth = "depth_tile".toList ++ Nat.toDigits 10 (i + 1) ∧ ∀ l, d.level = some l → l = "num_levels_tile".toList ++ Nat.toDigits 10 (i + 1)) ∧
      (d.level ≠ none ↔ o.vgrid ≠ none) := by
  obtain ⟨_, _, _, ds, g, _, _, hd, rfl⟩ := main_parts hm
  obtain ⟨g1, g2, _⟩ := tiles_get _ _ _ _ _ _ _ hd
  refine ⟨g1, ?_⟩
  intro i t hi
  obtain ⟨a, b, c, _⟩ := g2 i t hi
  rw [Nat.zero_add] at c
  refine ⟨_, c, ?_, ?_, ?_, ?_, ?_⟩
  · show 2 * (t.nx / 2) = t.nx
    omega
  · show 2 * (t.ny / 2) = t.ny
    omega
  · intro h1
    refine ⟨if_pos h1, if_pos h1, if_pos h1, ?_⟩
    intro l hl
    unfold define tiled at hl
    simp only [if_pos h1] at hl
    split_ifs at hl
    exact (Option.some.inj hl).symm
  · intro h1
    refine ⟨if_neg h1, if_neg h1, if_neg h1, ?_⟩
    intro l hl
    unfold define tiled at hl
    simp only [if_neg h1] at hl
    split_ifs at hl
    exact (Option.some.inj hl).symm
  · show (if o.vgrid.isSome = true then _ else none) ≠ none ↔ _
    cases o.vgrid <;> simp

private theorem tiled_inj {nt n m : Nat} {w v : Word} (hn : n < nt) (hm : m < nt) (h : tiled nt n w = tiled nt m v) (hl : w = v) : n = m := by
  subst hl
  unfold tiled at h
  by_cases h1 : nt = 1
  · omega
  · rw [if_neg h1, if_neg h1] at h
    have := digits_inj (List.append_cancel_left h)
    omega

/-- No name is defined twice: neither a dimension nor a variable. -/
theorem C143_names {args : List Word} {o : Options} {ts : List Tile} {h : Header} (hm : main args o ts = .ok h) :
    (h.defs.flatMap fun d => [d.dimX, d.dimY]).Nodup ∧ (h.defs.flatMap fun d => d.depth :: d.level.toList).Nodup := by
  obtain ⟨_, _, _, ds, g, _, _, hd, rfl⟩ := main_parts hm
  obtain ⟨g1, g2, _⟩ := tiles_get _ _ _ _ _ _ _ hd
  have shape : ∀ i (hi : i < ds.length), ∃ t, ds[i] = define o.vgrid.isSome ts.length i t := by
    intro i hi
    have hi' : i < ts.length := by omega
    have := (g2 i ts[i] (List.getElem?_eq_getElem hi')).2.2.1
    rw [List.getElem?_eq_getElem hi, Nat.zero_add] at this
    exact ⟨_, Option.some.inj this⟩
  have first : ∀ {nt n m : Nat} {c d : Char} {w v : Word}, c ≠ d → tiled nt n (c :: w) ≠ tiled nt m (d :: v) := by
    intro nt n m c d w v hcd he
    unfold tiled at he
    split_ifs at he
    · exact hcd (List.cons.inj he).1
    · exact hcd (List.cons.inj he).1
  have second : ∀ {nt n m : Nat} {b c d : Char} {w v : Word}, c ≠ d → tiled nt n (b :: c :: w) ≠ tiled nt m (b :: d :: v) := by
    intro nt n m b c d w v hcd he
    unfold tiled at he
    split_ifs at he
    · exact hcd (List.cons.inj (List.cons.inj he).2).1
    · exact hcd (List.cons.inj (List.cons.inj he).2).1
  have xy : ∀ {nt n m : Nat}, tiled nt n "nx".toList ≠ tiled nt m "ny".toList := fun {nt n m} => second (b := 'n') (c := 'x') (d := 'y') (w := []) (v := []) (by decide)
  have dl : ∀ {nt n m : Nat}, tiled nt n "depth".toList ≠ tiled nt m "num_levels".toList := fun {nt n m} =>
    first (c := 'd') (d := 'n') (w := "epth".toList) (v := "um_levels".toList) (by decide)
  show (ds.flatMap _).Nodup ∧ (ds.flatMap _).Nodup
  constructor
  · rw [List.nodup_flatMap]
    constructor
    · intro d hdm
      obtain ⟨i, hi, rfl⟩ := List.mem_iff_getElem.mp hdm
      obtain ⟨t, ht⟩ := shape i hi
      rw [ht]
      simp only [define, List.nodup_cons, List.mem_singleton, List.not_mem_nil, not_false_eq_true, List.nodup_nil, and_true]
      exact xy
    · rw [List.pairwise_iff_getElem]
      intro i j hi hj hij w h1 h2
      obtain ⟨t, ht⟩ := shape i hi
      obtain ⟨u, hu⟩ := shape j hj
      rw [ht] at h1
      rw [hu] at h2
      simp only [define, List.mem_cons, List.not_mem_nil, or_false] at h1 h2
      rcases h1 with h1 | h1 <;> rcases h2 with h2 | h2
      · have := tiled_inj (by omega) (by omega) (h1.symm.trans h2) rfl
        omega
      · exact xy (h1.symm.trans h2)
      · exact xy (h2.symm.trans h1)
      · have := tiled_inj (by omega) (by omega) (h1.symm.trans h2) rfl
        omega
  · rw [List.nodup_flatMap]
    constructor
    · intro d hdm
      obtain ⟨i, hi, rfl⟩ := List.mem_iff_getElem.mp hdm
      obtain ⟨t, ht⟩ := shape i hi
      rw [ht]
      cases hv : o.vgrid.isSome
      · simp [define]
      · simp only [define, if_true, Option.toList_some, List.nodup_cons, List.mem_singleton, List.not_mem_nil, not_false_eq_true, List.nodup_nil, and_true]
        exact dl
    · rw [List.pairwise_iff_getElem]
      intro i j hi hj hij w h1 h2
      obtain ⟨t, ht⟩ := shape i hi
      obtain ⟨u, hu⟩ := shape j hj
      rw [ht] at h1
      rw [hu] at h2
      have lv : ∀ {n : Nat} {t : Tile}, w ∈ (define o.vgrid.isSome ts.length n t).level.toList → w = tiled ts.length n "num_levels".toList := by
        intro n t hw
        cases hv : o.vgrid.isSome
        · rw [hv] at hw
          simp [define] at hw
        · rw [hv] at hw
          simpa [define] using hw
      have c1 : w = tiled ts.length i "depth".toList ∨ w = tiled ts.length i "num_levels".toList := by
        rcases List.mem_cons.mp h1 with h | h
        · exact .inl h
        · exact .inr (lv h)
      have c2 : w = tiled ts.length j "depth".toList ∨ w = tiled ts.length j "num_levels".toList := by
        rcases List.mem_cons.mp h2 with h | h
        · exact .inl h
        · exact .inr (lv h)
      rcases c1 with h1 | h1 <;> rcases c2 with h2 | h2
      · have := tiled_inj (by omega) (by omega) (h1.symm.trans h2) rfl
        omega
      · exact dl (h1.symm.trans h2)
      · exact dl (h2.symm.trans h1)
      · have := tiled_inj (by omega) (by omega) (h1.symm.trans h2) rfl
        omega

/-- The flag in the output file is that of the last tile. -/
theorem C143_flag {args : List Word} {o : Options} {ts : List Tile} {h : Header} (hm : main args o ts = .ok h) (t : Tile) (ht : ts.getLast? = some t) :
    readGca h.atts = readGca t.atts := by
  obtain ⟨_, _, _, ds, g, _, _, hd, rfl⟩ := main_parts hm
  rw [(tiles_get _ _ _ _ _ _ _ hd).2.2 t ht]
  exact C144_great_circle (some _) g

/-- A mosaic of one tile may use the great circle algorithm. -/
theorem C143_one_tile {args : List Word} {o : Options} {k : Kind} {f hist : Word} (t : Tile) (ho : options o = .ok (k, f)) (hh : history (size .topog) args = .ok hist)
    {g : Bool} (hg : readGca t.atts = .ok g) (he : t.nx % 2 = 0 ∧ t.ny % 2 = 0) : ∃ h, main args o [t] = .ok h ∧ readGca h.atts = .ok g := by
  have hd : tiles o.vgrid.isSome [t].length 0 false [t] = .ok ([define o.vgrid.isSome 1 0 t], g) := by
    rw [tiles, if_neg (by omega), hg]
    simp only [lt_irrefl, false_and, if_false]
    rfl
  refine ⟨⟨k, f, [define o.vgrid.isSome 1 0 t], provenance (some hist) g⟩, ?_, C144_great_circle (some hist) g⟩
  unfold main
  rw [ho, hh, hd]
  rfl

/-- A mosaic of several tiles that all use the great circle algorithm is refused, with the message that the tiles differ. -/
theorem C143_great_circle_wrong (args : List Word) (o : Options) (t u : Tile) (ts : List Tile) (hu : readGca u.atts = .ok true) : ∀ h, main args o (t :: u :: ts) ≠ .ok h := by
  intro h hm
  obtain ⟨_, _, _, ds, g, _, _, hd, rfl⟩ := main_parts hm
  have := ((tiles_get _ _ _ _ _ _ _ hd).2.1 1 u rfl).2.2.2 (by omega)
  rw [hu] at this
  cases this

/-- A mosaic of which the first tile only uses the great circle algorithm is accepted, and then none does. -/
theorem C143_first_tile_wrong {args : List Word} {o : Options} {k : Kind} {f hist : Word} (t u : Tile) (ho : options o = .ok (k, f)) (hh : history (size .topog) args = .ok hist)
    (ht : readGca t.atts = .ok true) (hu : readGca u.atts = .ok false) (he : t.nx % 2 = 0 ∧ t.ny % 2 = 0) (he' : u.nx % 2 = 0 ∧ u.ny % 2 = 0) :
    ∃ h, main args o [t, u] = .ok h ∧ readGca h.atts = .ok false := by
  have hd : tiles o.vgrid.isSome [t, u].length 0 false [t, u] = .ok ([define o.vgrid.isSome 2 0 t, define o.vgrid.isSome 2 1 u], false) := by
    rw [tiles, if_neg (by omega), ht]
    simp only [lt_irrefl, false_and, if_false]
    rw [tiles, if_neg (by omega), hu]
    simp only [ne_eq, not_true_eq_false, and_false, if_false]
    rfl
  refine ⟨⟨k, f, [define o.vgrid.isSome 2 0 t, define o.vgrid.isSome 2 1 u], provenance (some hist) false⟩, ?_, C144_great_circle (some hist) false⟩
  unfold main
  rw [ho, hh, hd]
  rfl

/-- Good options, a short command line, and two tiles. -/
theorem C143_example : ∃ h, main ["make_topog".toList, "--mosaic".toList, "ocean_mosaic.nc".toList, "--topog_type".toList, "bowl".toList]
    ⟨some "ocean_mosaic.nc".toList, some "bowl".toList, none, 2, 2, none, none, none, 0, 0, 0, 0⟩ [⟨8, 4, []⟩, ⟨6, 6, []⟩] = .ok h ∧
      h.defs.map (fun d => (d.depth, d.nx, d.ny)) = [("depth_tile1".toList, 4, 2), ("depth_tile2".toList, 3, 3)] := by
  refine ⟨_, rfl, ?_⟩
  decide +kernel

end Verif
