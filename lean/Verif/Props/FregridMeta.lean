import Verif.Spec.FregridMeta
import Mathlib.Data.List.Nodup
/-
C129: the axes of the fields of fregrid.
-/
namespace Verif.FregridMeta
open Verif.Spec.FregridMeta

variable {F : Type}

/-! ### Places of axes -/

theorem prefix_get {α : Type} {l l' : List α} (h : l <+: l') {j : Nat} {a : α} (ha : l[j]? = some a) : l'[j]? = some a := by
  obtain ⟨t, rfl⟩ := h
  obtain ⟨hj, _⟩ := List.getElem?_eq_some_iff.1 ha
  rw [List.getElem?_append_left hj, ha]

/-- One step keeps the axes there are, and gives the place of an axis of the right name. -/
theorem addAxis_index {regrid : Bool} {c : Cfg} {s s' : St F} {d : Dim F} {j : Nat} (h : addAxis regrid c s d = .ok (s', j)) (hn : (s.axes.map (·.name)).Nodup) :
    (s'.axes.map (·.name)).Nodup ∧ s.axes <+: s'.axes ∧ ∃ a, s'.axes[j]? = some a ∧ a.name = d.name := by
  unfold addAxis at h
  cases hf : s.axes.findIdx? (fun a => a.name == d.name) with
  | some i =>
    rw [hf] at h
    cases h
    refine ⟨hn, List.prefix_refl _, ?_⟩
    obtain ⟨hlt, hp, _⟩ := List.findIdx?_eq_some_iff_getElem.1 hf
    exact ⟨s.axes[j], List.getElem?_eq_getElem hlt, by simpa using hp⟩
  | none =>
    rw [hf] at h
    simp only at h
    split at h
    · cases h
    · split at h
      · cases h
      · cases h
        refine ⟨?_, List.prefix_append _ _, ?_⟩
        · rw [List.map_append, List.nodup_append]
          refine ⟨hn, by simp, ?_⟩
          intro x hx y hy hxy
          obtain ⟨a, ha, rfl⟩ := List.mem_map.1 hx
          have : y = d.name := by simpa using hy
          have hne := (List.findIdx?_eq_none_iff.1 hf) a ha
          simp [hxy, this] at hne
        · refine ⟨_, List.getElem?_concat_length, rfl⟩

theorem addAxes_index {regrid : Bool} {c : Cfg} : ∀ {l : List (Dim F)} {s s' : St F} {is : List Nat}, addAxes regrid c s l = .ok (s', is) →
    (s.axes.map (·.name)).Nodup → (s'.axes.map (·.name)).Nodup ∧ s.axes <+: s'.axes ∧
      List.Forall₂ (fun (d : Dim F) j => ∃ a, s'.axes[j]? = some a ∧ a.name = d.name) l is := by
  intro l
  induction l with
  | nil =>
    intro s s' is h hn
    cases h
    exact ⟨hn, List.prefix_refl _, List.Forall₂.nil⟩
  | cons d l ih =>
    intro s s' is h hn
    unfold addAxes at h
    cases h1 : addAxis regrid c s d with
    | error e => rw [h1] at h; cases h
    | ok p =>
      obtain ⟨s1, j⟩ := p
      rw [h1] at h
      simp only at h
      cases h2 : addAxes regrid c s1 l with
      | error e => rw [h2] at h; cases h
      | ok q =>
        obtain ⟨s2, is'⟩ := q
        rw [h2] at h
        cases h
        obtain ⟨a1, a2, a, a3, a4⟩ := addAxis_index h1 hn
        obtain ⟨b1, b2, b3⟩ := ih h2 a1
        refine ⟨b1, a2.trans b2, List.Forall₂.cons ⟨a, ?_, a4⟩ b3⟩
        exact prefix_get b2 a3

theorem scan_index {o : Opts} {nx ny : Nat} : ∀ {vs : List (Var F)} {s s' : St F} {rs : List (Cfg × List Nat)}, scan o nx ny s vs = .ok (s', rs) →
    (s.axes.map (·.name)).Nodup → (s'.axes.map (·.name)).Nodup ∧ s.axes <+: s'.axes ∧
      List.Forall₂ (fun (v : Var F) r => List.Forall₂ (fun (d : Dim F) j => ∃ a, s'.axes[j]? = some a ∧ a.name = d.name) v.dims r.2) vs rs := by
  intro vs
  induction vs with
  | nil =>
    intro s s' rs h hn
    cases h
    exact ⟨hn, List.prefix_refl _, List.Forall₂.nil⟩
  | cons v vs ih =>
    intro s s' rs h hn
    unfold scan at h
    cases h1 : scanVar o nx ny s v with
    | error e => rw [h1] at h; cases h
    | ok p =>
      obtain ⟨s1, r⟩ := p
      rw [h1] at h
      simp only at h
      cases h2 : scan o nx ny s1 vs with
      | error e => rw [h2] at h; cases h
      | ok q =>
        obtain ⟨s2, rs'⟩ := q
        rw [h2] at h
        cases h
        unfold scanVar at h1
        cases hc : config o nx ny v s.nt with
        | error e => rw [hc] at h1; cases h1
        | ok c =>
          rw [hc] at h1
          simp only at h1
          cases ha : addAxes v.regrid c { s with nt := c.nt } v.dims with
          | error e => rw [ha] at h1; cases h1
          | ok q =>
            obtain ⟨s3, is⟩ := q
            rw [ha] at h1
            cases h1
            obtain ⟨a1, a2, a3⟩ := addAxes_index ha hn
            obtain ⟨b1, b2, b3⟩ := ih h2 a1
            refine ⟨b1, a2.trans b2, List.Forall₂.cons ?_ b3⟩
            refine a3.imp (fun d j ⟨a, h1, h2⟩ => ⟨a, ?_, h2⟩)
            exact prefix_get b2 h1

/-- **C129, axes of a field.** Whatever fields are chosen: if the program goes on, each name has one axis, and each field has for each of its dimensions, in order,
the axis of that name. -/
theorem C129_index {o : Opts} {nx ny : Nat} {vs : List (Var F)} {s : St F} {rs : List (Cfg × List Nat)} (h : scan o nx ny start vs = .ok (s, rs)) :
    (s.axes.map (·.name)).Nodup ∧
      List.Forall₂ (fun (v : Var F) r => List.Forall₂ (fun (d : Dim F) j => ∃ a, s.axes[j]? = some a ∧ a.name = d.name) v.dims r.2) vs rs := by
  obtain ⟨h1, _, h3⟩ := scan_index h (by simp [start])
  exact ⟨h1, h3⟩

/-! ### Parts of axes -/

/-- The settings of a field fit its dimensions. -/
def Fits (o : Opts) (c : Cfg) (d : Dim F) : Prop :=
  (d.cart = 'T' → c.lstart = first o d ∧ c.nt = count o d ∧ first o d + count o d ≤ d.size) ∧
  (d.cart = 'Z' → c.kstart = first o d ∧ c.nz = count o d ∧ first o d + count o d ≤ d.size)

theorem fromLast_of {ds : List (Dim F)} {k n : Nat} {d : Dim F} (h : ds[k]? = some d) (hk : k + n = ds.length) (hn : 0 < n) : fromLast ds n = some d := by
  unfold fromLast
  rw [if_pos (by omega), show ds.length - n = k by omega, h]

theorem levels_lt {o : Opts} {ds : List (Dim F)} {c c' : Cfg} (h : levels o ds c = .ok c') : c'.lstart = c.lstart ∧ c'.nt = c.nt := by
  unfold levels at h
  cases hf : fromLast ds 3 with
  | none => rw [hf] at h; cases h; exact ⟨rfl, rfl⟩
  | some d =>
    rw [hf] at h
    simp only at h
    split at h
    · cases hk : o.k with
      | none => rw [hk] at h; cases h; exact ⟨rfl, rfl⟩
      | some p =>
        obtain ⟨b, e⟩ := p
        rw [hk] at h
        simp only at h
        split at h
        · cases h
        · cases h; exact ⟨rfl, rfl⟩
    · split at h
      · cases h; exact ⟨rfl, rfl⟩
      · cases h; exact ⟨rfl, rfl⟩

theorem levels_fit {o : Opts} (ho : Proper o) {ds : List (Dim F)} {c c' : Cfg} {d : Dim F} (h : levels o ds c = .ok c') (hf : fromLast ds 3 = some d)
    (hz : d.cart = 'Z') : c'.kstart = first o d ∧ c'.nz = count o d ∧ first o d + count o d ≤ d.size := by
  unfold levels at h
  rw [hf] at h
  simp only [hz, if_true] at h
  have hopt : option o d = o.k := by unfold option; rw [hz]; simp
  unfold first count
  rw [hopt]
  cases hk : o.k with
  | none =>
    rw [hk] at h
    cases h
    exact ⟨rfl, rfl, by simp⟩
  | some p =>
    obtain ⟨b, e⟩ := p
    rw [hk] at h
    simp only at h ⊢
    split at h
    · cases h
    · rename_i hle
      cases h
      have := ho.1 b e hk
      exact ⟨rfl, rfl, by omega⟩

theorem fourth_keep {ds : List (Dim F)} {c c' : Cfg} (h : fourth ds c = .ok c') : c'.kstart = c.kstart ∧ c'.nz = c.nz ∧ c'.nt = c.nt ∧ c'.lstart = c.lstart := by
  unfold fourth at h
  cases hf : fromLast ds 4 with
  | none => rw [hf] at h; cases h; exact ⟨rfl, rfl, rfl, rfl⟩
  | some d =>
    rw [hf] at h
    simp only at h
    split at h
    · cases h
    · split at h <;> cases h <;> exact ⟨rfl, rfl, rfl, rfl⟩

theorem times_keep {o : Opts} {ds : List (Dim F)} {c c' : Cfg} (h : times o ds c = .ok c') : c'.kstart = c.kstart ∧ c'.nz = c.nz := by
  unfold times at h
  cases hf : ds.head? with
  | none => rw [hf] at h; cases h; exact ⟨rfl, rfl⟩
  | some d =>
    rw [hf] at h
    simp only at h
    split at h
    · cases hk : o.l with
      | none => rw [hk] at h; cases h; exact ⟨rfl, rfl⟩
      | some p =>
        obtain ⟨b, e⟩ := p
        rw [hk] at h
        simp only at h
        split at h
        · cases h
        · cases h; exact ⟨rfl, rfl⟩
    · cases h; exact ⟨rfl, rfl⟩

theorem times_fit {o : Opts} (ho : Proper o) {ds : List (Dim F)} {c c' : Cfg} {d : Dim F} (h : times o ds c = .ok c') (hf : ds.head? = some d)
    (hz : d.cart = 'T') : c'.lstart = first o d ∧ c'.nt = count o d ∧ first o d + count o d ≤ d.size := by
  unfold times at h
  rw [hf] at h
  simp only [hz, if_true] at h
  have hopt : option o d = o.l := by unfold option; rw [hz]; simp
  unfold first count
  rw [hopt]
  cases hk : o.l with
  | none =>
    rw [hk] at h
    cases h
    exact ⟨rfl, rfl, by simp⟩
  | some p =>
    obtain ⟨b, e⟩ := p
    rw [hk] at h
    simp only at h ⊢
    split at h
    · cases h
    · cases h
      have := ho.2 b e hk
      exact ⟨rfl, rfl, by omega⟩

theorem config_fits {o : Opts} (ho : Proper o) {nx ny nt : Nat} {v : Var F} {c : Cfg} (h : config o nx ny v nt = .ok c) (hv : Ordered v) (hr : v.regrid = true) :
    ∀ d ∈ v.dims, Fits o c d := by
  unfold config at h
  rw [if_pos hr] at h
  cases h0 : sizes nx ny v.dims with
  | error e => rw [h0] at h; cases h
  | ok u =>
    rw [h0] at h
    cases h1 : levels o v.dims { nt := nt } with
    | error e => rw [h1] at h; cases h
    | ok c1 =>
      rw [h1] at h
      simp only [bind, Except.bind] at h
      cases h2 : fourth v.dims c1 with
      | error e => rw [h2] at h; cases h
      | ok c2 =>
        rw [h2] at h
        have h3 : times o v.dims c2 = .ok c := by
          have h := h
          simpa [bind, Except.bind] using h
        obtain ⟨k1, k2, k3, k4⟩ := fourth_keep h2
        obtain ⟨t1, t2⟩ := times_keep h3
        intro d hd
        obtain ⟨k, hk, rfl⟩ := List.mem_iff_getElem.1 hd
        have hk' : v.dims[k]? = some v.dims[k] := List.getElem?_eq_getElem hk
        obtain ⟨z, t⟩ := hv hr k _ hk'
        refine ⟨fun hT => ?_, fun hZ => ?_⟩
        · have := t hT
          subst this
          exact times_fit ho h3 (by rw [List.head?_eq_getElem?, hk']) hT
        · have := levels_fit ho h1 (fromLast_of hk' (z hZ) (by omega)) hZ
          rw [t1, t2, k1, k2]
          exact this

/-- Each axis is the part of a dimension that is asked for; `start[0]` is 0 if there are no options. -/
def Good (o : Opts) (D : Dim F → Prop) (s : St F) : Prop :=
  (∀ a ∈ s.axes, ∃ d, D d ∧ Part o d a) ∧ ((o.k = none ∧ o.l = none) → s.start0 = 0)

theorem startOf_first {o : Opts} {regrid : Bool} {c : Cfg} {d : Dim F} {s0 : Nat} (hc : regrid = true → Fits o c d)
    (hr : regrid = true ∨ (o.k = none ∧ o.l = none)) (hs : (o.k = none ∧ o.l = none) → s0 = 0) :
    startOf regrid c d s0 = first o d ∧ sizeOf regrid c d = count o d ∧ first o d + count o d ≤ d.size := by
  cases regrid with
  | true =>
    have hf := hc rfl
    unfold startOf sizeOf
    simp only [if_true]
    by_cases hT : d.cart = 'T'
    · rw [if_pos hT, if_pos hT]; exact hf.1 hT
    · rw [if_neg hT, if_neg hT]
      by_cases hZ : d.cart = 'Z'
      · rw [if_pos hZ, if_pos hZ]; exact hf.2 hZ
      · rw [if_neg hZ, if_neg hZ]
        have : option o d = none := by unfold option; rw [if_neg hT, if_neg hZ]
        unfold first count
        rw [this]
        simp
  | false =>
    have hn : o.k = none ∧ o.l = none := by rcases hr with h | h; cases h; exact h
    have : option o d = none := by unfold option; rw [hn.1, hn.2]; simp
    unfold startOf sizeOf first count
    rw [this, hs hn]
    simp

theorem addAxis_good {o : Opts} {D : Dim F → Prop} {regrid : Bool} {c : Cfg} {s : St F} {d : Dim F} (hd : D d) (hc : regrid = true → Fits o c d)
    (hr : regrid = true ∨ (o.k = none ∧ o.l = none)) (hs : Good o D s) :
    addAxis regrid c s d ≠ .error .edge ∧ ∀ s' j, addAxis regrid c s d = .ok (s', j) → Good o D s' := by
  obtain ⟨e1, e2, e3⟩ := startOf_first hc hr hs.2
  unfold addAxis
  cases hf : s.axes.findIdx? (fun a => a.name == d.name) with
  | some i =>
    refine ⟨by simp, fun s' j h => ?_⟩
    cases h
    exact hs
  | none =>
    simp only [e1, e2]
    by_cases h20 : 20 < s.axes.length + 1
    · rw [if_pos h20]
      exact ⟨by simp, fun s' j h => by cases h⟩
    · rw [if_neg h20, if_neg (by omega)]
      refine ⟨by simp, fun s' j h => ?_⟩
      cases h
      refine ⟨fun a ha => ?_, fun hn => ?_⟩
      · rcases List.mem_append.1 ha with ha | ha
        · exact hs.1 a ha
        · refine ⟨d, hd, ?_⟩
          have : a = _ := List.mem_singleton.1 ha
          subst this
          refine ⟨rfl, rfl, rfl, e3, fun _ _ => rfl, rfl, fun hb k _ => ?_, fun hb k _ => ?_⟩
          · simp [hb]
          · simp only [hb, if_true]
            exact ⟨by congr 1; omega, by congr 1; omega⟩
      · show first o d = 0
        have : option o d = none := by unfold option; rw [hn.1, hn.2]; simp
        unfold first
        rw [this]

theorem addAxes_good {o : Opts} {D : Dim F → Prop} {regrid : Bool} {c : Cfg} (hr : regrid = true ∨ (o.k = none ∧ o.l = none)) :
    ∀ {l : List (Dim F)} {s : St F}, (∀ d ∈ l, D d) → (∀ d ∈ l, regrid = true → Fits o c d) → Good o D s →
    addAxes regrid c s l ≠ .error .edge ∧ ∀ s' is, addAxes regrid c s l = .ok (s', is) → Good o D s' := by
  intro l
  induction l with
  | nil =>
    intro s _ _ hs
    refine ⟨by simp [addAxes], fun s' is h => ?_⟩
    cases h
    exact hs
  | cons d l ih =>
    intro s hD hf hs
    obtain ⟨a1, a2⟩ := addAxis_good (hD d List.mem_cons_self) (hf d List.mem_cons_self) hr hs
    unfold addAxes
    cases h1 : addAxis regrid c s d with
    | error e =>
      refine ⟨fun h => a1 ?_, fun s' is h => by cases h⟩
      rw [h1]; exact congrArg _ (Except.error.inj h)
    | ok p =>
      obtain ⟨s1, j⟩ := p
      obtain ⟨b1, b2⟩ := ih (fun d hd => hD d (List.mem_cons_of_mem _ hd)) (fun d hd => hf d (List.mem_cons_of_mem _ hd)) (a2 s1 j h1)
      simp only
      cases h2 : addAxes regrid c s1 l with
      | error e =>
        refine ⟨fun h => b1 ?_, fun s' is h => by cases h⟩
        rw [h2]; exact congrArg _ (Except.error.inj h)
      | ok q =>
        obtain ⟨s2, is'⟩ := q
        refine ⟨by simp, fun s' is h => ?_⟩
        cases h
        exact b2 _ _ h2

theorem config_edge {o : Opts} {nx ny nt : Nat} {v : Var F} : config o nx ny v nt ≠ .error .edge := by
  unfold config
  by_cases hr : v.regrid = true
  · rw [if_pos hr]
    intro h
    cases h0 : sizes nx ny v.dims with
    | error e =>
      rw [h0] at h
      have h : e = .edge := by simpa [bind, Except.bind] using h
      subst h
      unfold sizes at h0
      split at h0
      · cases h0
      · split at h0 <;> cases h0
    | ok u =>
      rw [h0] at h
      cases h1 : levels o v.dims { nt := nt } with
      | error e =>
        rw [h1] at h
        have h : e = .edge := by simpa [bind, Except.bind] using h
        subst h
        unfold levels at h1
        cases hf : fromLast v.dims 3 with
        | none => rw [hf] at h1; cases h1
        | some d =>
          rw [hf] at h1
          simp only at h1
          split at h1
          · cases hk : o.k with
            | none => rw [hk] at h1; cases h1
            | some p => rw [hk] at h1; simp only at h1; split at h1 <;> cases h1
          · split at h1 <;> cases h1
      | ok c1 =>
        rw [h1] at h
        simp only [bind, Except.bind] at h
        cases h2 : fourth v.dims c1 with
        | error e =>
          rw [h2] at h
          have h : e = .edge := by simpa [bind, Except.bind] using h
          subst h
          unfold fourth at h2
          cases hf : fromLast v.dims 4 with
          | none => rw [hf] at h2; cases h2
          | some d =>
            rw [hf] at h2
            simp only at h2
            split at h2
            · cases h2
            · split at h2 <;> cases h2
        | ok c2 =>
          rw [h2] at h
          have h3 : times o v.dims c2 = .error .edge := by simpa [bind, Except.bind] using h
          unfold times at h3
          cases hf : v.dims.head? with
          | none => rw [hf] at h3; cases h3
          | some d =>
            rw [hf] at h3
            simp only at h3
            split at h3
            · cases hk : o.l with
              | none => rw [hk] at h3; cases h3
              | some p => rw [hk] at h3; simp only at h3; split at h3 <;> cases h3
            · cases h3
  · rw [if_neg hr]; simp

theorem scan_good {o : Opts} (ho : Proper o) {nx ny : Nat} {D : Dim F → Prop} : ∀ {vs : List (Var F)} {s : St F}, (∀ v ∈ vs, ∀ d ∈ v.dims, D d) → (∀ v ∈ vs, Ordered v) →
    ((∀ v ∈ vs, v.regrid = true) ∨ (o.k = none ∧ o.l = none)) → Good o D s →
    scan o nx ny s vs ≠ .error .edge ∧ ∀ s' rs, scan o nx ny s vs = .ok (s', rs) → Good o D s' ∧
      List.Forall₂ (fun (v : Var F) r => v.regrid = true → ∀ d ∈ v.dims, Fits o r.1 d) vs rs := by
  intro vs
  induction vs with
  | nil =>
    intro s _ _ _ hs
    refine ⟨by simp [scan], fun s' rs h => ?_⟩
    cases h
    exact ⟨hs, List.Forall₂.nil⟩
  | cons v vs ih =>
    intro s hD hO hr hs
    unfold scan scanVar
    cases hc : config o nx ny v s.nt with
    | error e =>
      refine ⟨fun h => config_edge (o := o) (nx := nx) (ny := ny) (nt := s.nt) (v := v) ?_, fun s' rs h => by cases h⟩
      rw [hc]; exact congrArg _ (Except.error.inj h)
    | ok c =>
      simp only
      have hfit : v.regrid = true → ∀ d ∈ v.dims, Fits o c d := fun h => config_fits ho hc (hO v List.mem_cons_self) h
      have hr1 : v.regrid = true ∨ (o.k = none ∧ o.l = none) := hr.imp (fun h => h v List.mem_cons_self) id
      obtain ⟨a1, a2⟩ := addAxes_good (s := { s with nt := c.nt }) hr1 (hD v List.mem_cons_self) (fun d hd h => hfit h d hd) hs
      cases h1 : addAxes v.regrid c { s with nt := c.nt } v.dims with
      | error e =>
        refine ⟨fun h => a1 ?_, fun s' is h => by cases h⟩
        rw [h1]; exact congrArg _ (Except.error.inj h)
      | ok p =>
        obtain ⟨s1, is⟩ := p
        simp only
        obtain ⟨b1, b2⟩ := ih (fun v hv => hD v (List.mem_cons_of_mem _ hv)) (fun v hv => hO v (List.mem_cons_of_mem _ hv))
          (hr.imp (fun h v hv => h v (List.mem_cons_of_mem _ hv)) id) (a2 s1 is h1)
        cases h2 : scan o nx ny s1 vs with
        | error e =>
          refine ⟨fun h => b1 ?_, fun s' is h => by cases h⟩
          rw [h2]; exact congrArg _ (Except.error.inj h)
        | ok q =>
          obtain ⟨s2, rs'⟩ := q
          refine ⟨by simp, fun s' rs h => ?_⟩
          cases h
          obtain ⟨g1, g2⟩ := b2 _ _ h2
          exact ⟨g1, List.Forall₂.cons hfit g2⟩

/-- **C129, parts of axes.** Fields of one file that are all remapped, or no choice of levels and times: nothing is read past the end of an axis; each field has for
each of its dimensions the axis with the part that is asked for, and its levels and times are that part. Missing: fields that are not remapped together with a
choice of levels or times, see `C129_stale_wrong` and `C129_whole_wrong`. -/
theorem C129_parts_partial {o : Opts} (ho : Proper o) {nx ny : Nat} {vs : List (Var F)} (h1 : OneFile vs) (hO : ∀ v ∈ vs, Ordered v)
    (hr : (∀ v ∈ vs, v.regrid = true) ∨ (o.k = none ∧ o.l = none)) :
    scan o nx ny start vs ≠ .error .edge ∧ ∀ s rs, scan o nx ny start vs = .ok (s, rs) →
      List.Forall₂ (fun (v : Var F) r => List.Forall₂ (fun (d : Dim F) j => ∃ a, s.axes[j]? = some a ∧ Part o d a) v.dims r.2 ∧
        (v.regrid = true → ∀ d ∈ v.dims, (d.cart = 'T' → r.1.lstart = first o d ∧ r.1.nt = count o d) ∧ (d.cart = 'Z' → r.1.kstart = first o d ∧ r.1.nz = count o d))) vs rs := by
  have hg : Good o (fun d => ∃ v ∈ vs, d ∈ v.dims) (start : St F) := ⟨by simp [start], fun _ => rfl⟩
  obtain ⟨a1, a2⟩ := scan_good (nx := nx) (ny := ny) ho (fun v hv d hd => ⟨v, hv, hd⟩) hO hr hg
  refine ⟨a1, fun s rs h => ?_⟩
  obtain ⟨g1, g2⟩ := a2 s rs h
  obtain ⟨_, i2⟩ := C129_index h
  have key : ∀ {l : List (Var F)} {rs : List (Cfg × List Nat)}, (∀ v ∈ l, v ∈ vs) →
      List.Forall₂ (fun (v : Var F) r => v.regrid = true → ∀ d ∈ v.dims, Fits o r.1 d) l rs →
      List.Forall₂ (fun (v : Var F) r => List.Forall₂ (fun (d : Dim F) j => ∃ a, s.axes[j]? = some a ∧ a.name = d.name) v.dims r.2) l rs →
      List.Forall₂ (fun (v : Var F) r => List.Forall₂ (fun (d : Dim F) j => ∃ a, s.axes[j]? = some a ∧ Part o d a) v.dims r.2 ∧
        (v.regrid = true → ∀ d ∈ v.dims, (d.cart = 'T' → r.1.lstart = first o d ∧ r.1.nt = count o d) ∧ (d.cart = 'Z' → r.1.kstart = first o d ∧ r.1.nz = count o d))) l rs := by
    intro l rs hl ha hb
    induction ha with
    | nil => exact List.Forall₂.nil
    | @cons v r l rs hfit _ ih =>
      obtain ⟨hb1, hb2⟩ := List.forall₂_cons.1 hb
      refine List.Forall₂.cons ⟨?_, fun hreg d hd => ?_⟩ (ih (fun v hv => hl v (List.mem_cons_of_mem _ hv)) hb2)
      · have hv := hl v List.mem_cons_self
        have : ∀ {ds : List (Dim F)} {js : List Nat}, (∀ d ∈ ds, d ∈ v.dims) → List.Forall₂ (fun (d : Dim F) j => ∃ a, s.axes[j]? = some a ∧ a.name = d.name) ds js →
            List.Forall₂ (fun (d : Dim F) j => ∃ a, s.axes[j]? = some a ∧ Part o d a) ds js := by
          intro ds js hds hf
          induction hf with
          | nil => exact List.Forall₂.nil
          | @cons d j ds js hx _ ih =>
            refine List.Forall₂.cons ?_ (ih (fun d hd => hds d (List.mem_cons_of_mem _ hd)))
            obtain ⟨a, ha, hname⟩ := hx
            obtain ⟨d', ⟨v', hv', hd'⟩, hp⟩ := g1.1 a (List.mem_of_getElem? ha)
            have : d' = d := h1 v' hv' d' hd' v hv d (hds d List.mem_cons_self) (by rw [← hp.1, hname])
            subst this
            exact ⟨a, ha, hp⟩
        exact this (fun _ h => h) hb1
      · have := hfit hreg d hd
        exact ⟨fun h => ⟨(this.1 h).1, (this.1 h).2.1⟩, fun h => ⟨(this.2 h).1, (this.2 h).2.1⟩⟩
  exact key (fun _ h => h) g2 i2

/-! ### Output -/

/-- **C129, axes of the output.** Columns and rows are those of the output grid with the edges of its cells as bounds, levels are those of the output levels if they are
given; all other axes are those of the input with their bounds. -/
theorem C129_output (g : Out F) (a : Axis F) :
    (a.cart = 'X' → (outAxis g a).size = g.nx ∧ (outAxis g a).data = g.lont ∧ ((outAxis g a).bndtype = 1 → (outAxis g a).bnd = g.lonc) ∧
      ((outAxis g a).bndtype ≠ 1 → ∀ k, (outAxis g a).bnd (2 * k) = g.lonc k ∧ (outAxis g a).bnd (2 * k + 1) = g.lonc (k + 1)) ∧
      (g.standard = true ∨ g.isLatlon = true ∧ a.bndtype = 0 → (outAxis g a).bndtype = 3) ∧ (g.standard = false → a.bndtype ≠ 0 → (outAxis g a).bndtype = a.bndtype)) ∧
    (a.cart = 'Y' → (outAxis g a).size = g.ny ∧ (outAxis g a).data = g.latt ∧ ((outAxis g a).bndtype = 1 → (outAxis g a).bnd = g.latc) ∧
      ((outAxis g a).bndtype ≠ 1 → ∀ k, (outAxis g a).bnd (2 * k) = g.latc k ∧ (outAxis g a).bnd (2 * k + 1) = g.latc (k + 1)) ∧
      (g.standard = true ∨ g.isLatlon = true ∧ a.bndtype = 0 → (outAxis g a).bndtype = 3) ∧ (g.standard = false → a.bndtype ≠ 0 → (outAxis g a).bndtype = a.bndtype)) ∧
    (a.cart = 'Z' → 0 < g.nz → (outAxis g a).size = g.nz ∧ (outAxis g a).data = g.z ∧ (outAxis g a).bndtype = a.bndtype ∧ (a.bndtype = 1 → (outAxis g a).bnd = g.zb) ∧
      (a.bndtype = 2 → ∀ k, (outAxis g a).bnd (2 * k) = g.zb k ∧ (outAxis g a).bnd (2 * k + 1) = g.zb (k + 1))) ∧
    (a.cart ≠ 'X' → a.cart ≠ 'Y' → ¬ (a.cart = 'Z' ∧ 0 < g.nz) → outAxis g a = a) := by
  have p0 : ∀ k, 2 * k / 2 + 2 * k % 2 = k := fun k => by omega
  have p1 : ∀ k, (2 * k + 1) / 2 = k := fun k => by omega
  refine ⟨fun h => ?_, fun h => ?_, fun h hz => ?_, fun h1 h2 h3 => ?_⟩
  · have hs : (outAxis g a).bndtype = outBnd g a := rfl
    refine ⟨by simp [outAxis, outSize, h], by simp [outAxis, outData, h], fun hb => ?_, fun hb k => ?_, fun hb => ?_, fun hb hb' => ?_⟩
    · rw [hs] at hb; simp [outAxis, outBounds, h, hb]
    · rw [hs] at hb; simp [outAxis, outBounds, h, hb, p0, p1]
    · rw [hs]
      unfold outBnd
      simp only [h, true_or, and_true, true_and]
      rcases hb with hb | hb
      · simp [hb]
      · simp [hb.1, hb.2]
    · rw [hs]
      unfold outBnd
      simp [hb, hb']
  · have hs : (outAxis g a).bndtype = outBnd g a := rfl
    refine ⟨by simp [outAxis, outSize, h], by simp [outAxis, outData, h], fun hb => ?_, fun hb k => ?_, fun hb => ?_, fun hb hb' => ?_⟩
    · rw [hs] at hb; simp [outAxis, outBounds, h, hb]
    · rw [hs] at hb; simp [outAxis, outBounds, h, hb, p0, p1]
    · rw [hs]
      unfold outBnd
      simp only [h, or_true, and_true, true_and]
      rcases hb with hb | hb
      · simp [hb]
      · simp [hb.1, hb.2]
    · rw [hs]
      unfold outBnd
      simp [hb, hb']
  · have hb : outBnd g a = a.bndtype := by simp [outBnd, h]
    refine ⟨by simp [outAxis, outSize, h, hz], by simp [outAxis, outData, h, hz], hb, fun h1 => ?_, fun h2 k => ?_⟩
    · simp [outAxis, outBounds, h, hz, hb, h1]
    · simp [outAxis, outBounds, h, hz, hb, h2, p0, p1]
  · have hb : outBnd g a = a.bndtype := by simp [outBnd, h1, h2]
    cases a
    simp only at h1 h2 h3 hb
    simp [outAxis, outSize, outData, outBounds, h1, h2, h3, hb]

/-- **C129, names.** Without `--standard_dimension` and without axes of whole numbers the dimensions keep their names, and all can be defined. -/
theorem C129_names (g : Out F) (isInt : String → Bool) (hs : g.standard = false) (hi : ∀ n, isInt n = false) (l : List (Axis F)) (hn : (l.map (·.name)).Nodup) :
    defDims g isInt l = .ok (l.map (·.name)) := by
  have : outName g isInt = fun a => a.name := by funext a; simp [outName, hs, hi]
  unfold defDims
  rw [this]
  simp only
  rw [if_pos hn]

/-- **C129, names with `--standard_dimension`.** With one axis of columns, one of rows, and no other axis with their new names, all can be defined: the columns as
"lon", the rows as "lat", the others with their names. -/
theorem C129_names_standard (g : Out F) (isInt : String → Bool) (hs : g.standard = true) (l : List (Axis F)) (hn : (l.map (·.name)).Nodup)
    (hx : ∀ a ∈ l, ∀ b ∈ l, a.cart = 'X' → b.cart = 'X' → a = b) (hy : ∀ a ∈ l, ∀ b ∈ l, a.cart = 'Y' → b.cart = 'Y' → a = b)
    (ho : ∀ a ∈ l, a.cart ≠ 'X' → a.cart ≠ 'Y' → a.name ≠ "lon" ∧ a.name ≠ "lat") :
    defDims g isInt l = .ok (l.map fun a => if a.cart = 'X' then "lon" else if a.cart = 'Y' then "lat" else a.name) := by
  have e : outName g isInt = fun a => if a.cart = 'X' then "lon" else if a.cart = 'Y' then "lat" else a.name := by
    funext a; simp [outName, hs]
  unfold defDims
  rw [e]
  simp only
  rw [if_pos]
  refine List.Nodup.map_on ?_ (List.Nodup.of_map _ hn)
  intro a ha b hb hab
  by_cases a1 : a.cart = 'X' <;> by_cases b1 : b.cart = 'X'
  · exact hx a ha b hb a1 b1
  · rw [if_pos a1, if_neg b1] at hab
    by_cases b2 : b.cart = 'Y'
    · rw [if_pos b2] at hab; exact absurd hab (by decide)
    · rw [if_neg b2] at hab; exact absurd hab.symm (ho b hb b1 b2).1
  · rw [if_neg a1, if_pos b1] at hab
    by_cases a2 : a.cart = 'Y'
    · rw [if_pos a2] at hab; exact absurd hab (by decide)
    · rw [if_neg a2] at hab; exact absurd hab (ho a ha a1 a2).1
  · rw [if_neg a1, if_neg b1] at hab
    by_cases a2 : a.cart = 'Y' <;> by_cases b2 : b.cart = 'Y'
    · exact hy a ha b hb a2 b2
    · rw [if_pos a2, if_neg b2] at hab; exact absurd hab.symm (ho b hb b1 b2).2
    · rw [if_neg a2, if_pos b2] at hab; exact absurd hab (ho a ha a1 a2).2
    · rw [if_neg a2, if_neg b2] at hab
      exact List.inj_on_of_nodup_map hn ha hb hab

/-! ### Fields that are axes -/

/-- **C129, marks of scalars.** Without vectors the marks of all scalars are set and no other memory is. -/
theorem C129_marks_partial (nscalar : Nat) : (axisDataWrites nscalar 0).1 = nscalar ∧ ∀ i, i ∈ (axisDataWrites nscalar 0).2 ↔ i < nscalar := by
  simp [axisDataWrites]

/-- **C129 fails with vectors.** With vectors in the same file memory behind the array of the second components is written, and no mark of a scalar is set. -/
theorem C129_marks_wrong (nscalar nvector : Nat) (h : 0 < nvector) : ∃ i ∈ (axisDataWrites nscalar nvector).2, (axisDataWrites nscalar nvector).1 ≤ i :=
  ⟨nscalar + 2 * nvector - 1, by simp [axisDataWrites]; omega, by simp [axisDataWrites, h]; omega⟩

/-! ### Examples -/

/-- Dimensions of the examples: kind, size. -/
def fmDim (n : String) (c : Char) (size : Nat) : Dim Nat := ⟨n, size, c, fun k => 10 * k, 0, fun _ => 0⟩
def fmX : Dim Nat := fmDim "x" 'X' 3
def fmY : Dim Nat := fmDim "y" 'Y' 2
def fmT : Dim Nat := fmDim "t" 'T' 5
def fmZ (n : String) : Dim Nat := fmDim n 'Z' 4

/-- What a run says about sizes of axes and the field settings. -/
def fmRun (o : Opts) (vs : List (Var Nat)) : Except Err (List (String × Nat × Nat) × List (Nat × List Nat)) :=
  match scan o 3 2 start vs with
  | .error e => .error e
  | .ok (s, rs) => .ok (s.axes.map (fun a => (a.name, a.size, a.data 0)), rs.map fun r => (r.1.nz, r.2))

/-- **C129 fails for a field that is not remapped, after one with new levels.** Levels 2 to 3 are asked for: `start[0]` is still 1, and the third field's own axis is read
past its end. -/
theorem C129_stale_wrong :
    fmRun ⟨some (2, 3), none⟩ [⟨"a", true, [fmT, fmZ "z", fmY, fmX]⟩, ⟨"b", true, [fmZ "w", fmY, fmX]⟩, ⟨"c", false, [fmDim "n" 'N' 4]⟩] = .error .edge := by rfl

/-- **C129 fails for a field on levels that is not remapped.** If it comes first, the axis has all four levels though the second field has the two that are asked for. -/
theorem C129_whole_wrong :
    fmRun ⟨some (2, 3), none⟩ [⟨"c", false, [fmZ "z"]⟩, ⟨"a", true, [fmZ "z", fmY, fmX]⟩] =
      .ok ([("z", 4, 0), ("y", 2, 0), ("x", 3, 0)], [(1, [0]), (2, [0, 1, 2])]) := by rfl

/-- **C129 fails for two kinds of columns with `--standard_dimension`.** Both would be called "lon", the program ends. -/
theorem C129_lon_wrong (g : Out Nat) (hs : g.standard = true) :
    defDims g (fun _ => false) [⟨"xh", 'X', 3, fun _ => 0, 0, fun _ => 0⟩, ⟨"xq", 'X', 3, fun _ => 0, 0, fun _ => 0⟩] = .error .name := by
  simp [defDims, outName, hs]

/-- `C129_parts_partial`: two fields, levels 2 to 3 of 4 and times 3 to 5 of 5. -/
example : fmRun ⟨some (2, 3), some (3, 5)⟩ [⟨"a", true, [fmT, fmZ "z", fmY, fmX]⟩, ⟨"b", true, [fmT, fmY, fmX]⟩] =
    .ok ([("t", 3, 20), ("z", 2, 10), ("y", 2, 0), ("x", 3, 0)], [(2, [0, 1, 2, 3]), (1, [0, 2, 3])]) := by rfl

example : Proper ⟨some (2, 3), some (3, 5)⟩ := by constructor <;> simp

end Verif.FregridMeta
