/-
`mpp_set_deflation`: what the loop over the output variables leaves behind.
-/
import Verif.Lemmas.MppIo
namespace Verif.MppIo
open Verif.Spec.MppIo

/-- What is known after `k` output variables -/
structure LoopInv (s t : State) (fidIn fidOut : Nat) (pin pout : Name) (vars : List Slot) (fin fout : Nc) (ud us : Int) (k : Nat) : Prop where
  inn : ∃ e, t.files[fidIn]? = some e ∧ path e.name = pin ∧ e.action = .read ∧
    ∀ (j : Nat) (sl : Slot), e.vars[j]? = some sl → ∃ x, fin.vars[sl.fldid]? = some x ∧ x.name = sl.name
  out : ∃ e, t.files[fidOut]? = some e ∧ e.vars = vars
  din : t.disk pin = some fin
  oth : ∀ p, p ≠ pout → t.disk p = s.disk p
  dout : ∃ g, t.disk pout = some g ∧ g.format = fout.format ∧ ∀ i : Nat, (k ≤ i → g.vars[i]? = fout.vars[i]?) ∧
    (i < k → ∀ v, fout.vars[i]? = some v → ∃ v', g.vars[i]? = some v' ∧ v'.name = v.name ∧ v'.type = v.type ∧
      Wanted ud us (lookupVar fin v.name) v.comp v'.comp)

theorem lookupVar_of {f : Nc} (h : (f.vars.map (·.name)).Nodup) {k : Nat} {v : Var} (hk : f.vars[k]? = some v) : lookupVar f v.name = some v := by
  unfold lookupVar
  cases hf : f.vars.find? (fun x => x.name == v.name) with
  | none =>
    have := List.find?_eq_none.1 hf v (mem_of_getElem? hk)
    simp at this
  | some w =>
    have hw := List.find?_some hf
    have hm := List.mem_of_find?_eq_some hf
    obtain ⟨j, hj⟩ := List.mem_iff_getElem?.1 hm
    simp only [beq_iff_eq] at hw
    obtain ⟨hk', rfl⟩ := List.getElem?_eq_some_iff.1 hk
    obtain ⟨hj', rfl⟩ := List.getElem?_eq_some_iff.1 hj
    have : j = k := by
      refine h.getElem_inj_iff.1 (?_ : (f.vars.map (·.name))[j]'(by simpa using hj') = (f.vars.map (·.name))[k]'(by simpa using hk'))
      simpa only [List.getElem_map] using hw
    subst this
    rfl

theorem lookupVar_none {f : Nc} {name : Name} (h : (varNamed f name).isNone = true) : lookupVar f name = none := by
  unfold lookupVar
  rw [List.find?_eq_none]
  intro v hv hn
  have := varNamed_none (Option.isNone_iff_eq_none.1 h)
  simp only [beq_iff_eq] at hn
  exact this (List.mem_map.2 ⟨v, hv, hn⟩)

theorem setComp_ok {s s' : State} {p : Name} {k : Nat} {sh l : Int} (h : setComp s p k sh l = .ok s') :
    ∃ f, s.disk p = some f ∧ (f.format = 3 ∨ f.format = 4) ∧ 0 ≤ l ∧ l ≤ 9 ∧ s' = { s with disk := setDisk s.disk p ⟨f.format, f.vars.modify k (fun v =>
      { v with comp := ⟨sh, if l = 0 then none else some l⟩ })⟩ } := by
  unfold setComp at h
  cases hd : s.disk p with
  | none => rw [hd] at h; simp at h
  | some f =>
    rw [hd] at h
    simp only at h
    by_cases h1 : f.format ≠ 3 ∧ f.format ≠ 4
    · rw [if_pos h1] at h; simp at h
    rw [if_neg h1] at h
    by_cases h2 : l < 0 ∨ 9 < l
    · rw [if_pos h2] at h; simp at h
    rw [if_neg h2] at h
    exact ⟨f, rfl, by omega, by omega, by omega, (Except.ok.inj h).symm⟩

theorem strength_new (sh l : Int) : strength ⟨sh, if l = 0 then none else some l⟩ = l := by
  unfold strength
  by_cases h : l = 0
  · simp [h]
  · simp [h]

/-- The lookup of the settings in the input file -/
theorem lookup_ok {root : Bool} {t t' : State} {fidIn : Nat} {fin : Nc} {name : Name} {stale stale' : Option Int} {ud us sh l : Int} {e : Ent}
    (he : t.files[fidIn]? = some e) (hp : t.disk (path e.name) = some fin)
    (hs : ∀ (j : Nat) (sl : Slot), e.vars[j]? = some sl → ∃ x, fin.vars[sl.fldid]? = some x ∧ x.name = sl.name)
    (ha : e.action = .read) (h : lookup root t fidIn fin name stale ud us = .ok (t', sh, l, stale')) :
    t'.disk = t.disk ∧ t'.inFormat = t.inFormat ∧ (∃ e', t'.files[fidIn]? = some e' ∧ e'.name = e.name ∧ e'.action = .read ∧
      ∀ (j : Nat) (sl : Slot), e'.vars[j]? = some sl → ∃ x, fin.vars[sl.fldid]? = some x ∧ x.name = sl.name) ∧
    (∀ i, i ≠ fidIn → t'.files[i]? = t.files[i]?) ∧
    ∃ v, (∃ k : Nat, fin.vars[k]? = some v) ∧ v.name = name ∧ stale' = (match v.comp.level with | some l => some l | none => stale) ∧
      (some l = if ud = -1 then stale' else some ud) ∧ sh = if us = -1 then v.comp.shuffle else us := by
  unfold lookup at h
  cases hg : getVarid root t (fidIn : Int) name with
  | error x => rw [hg] at h; simp at h
  | ok p =>
    obtain ⟨t₁, vid⟩ := p
    rw [hg] at h
    simp only at h
    have key : t₁.disk = t.disk ∧ t₁.inFormat = t.inFormat ∧ (∀ i, i ≠ fidIn → t₁.files[i]? = t.files[i]?) ∧
        ∃ e', t₁.files[fidIn]? = some e' ∧ e'.name = e.name ∧ e'.action = .read ∧
        (∀ (j : Nat) (sl : Slot), e'.vars[j]? = some sl → ∃ x, fin.vars[sl.fldid]? = some x ∧ x.name = sl.name) ∧
        ∃ sl, e'.vars[vid.toNat]? = some sl ∧ sl.name = name := by
      rcases getVarid_cases hg with ⟨rfl, hr⟩ | ⟨e₁, he₁, hv⟩
      · -- a file for reading is looked up on every processor
        exfalso
        unfold getVarid at hg
        by_cases h1 : (fidIn : Int) < 0 ∨ 200 ≤ (fidIn : Int)
        · rw [if_pos h1] at hg; simp at hg
        rw [if_neg h1, Int.toNat_natCast, he] at hg
        simp only at hg
        rw [if_neg (by simp [ha])] at hg
        rcases varidAt_cases hg with ⟨n, hn, _⟩ | ⟨_, _, _, _, _, _, _, hn, _⟩ <;> omega
      · rw [Int.toNat_natCast, he] at he₁
        obtain rfl := Option.some.inj he₁
        rw [Int.toNat_natCast] at hv
        rcases varidAt_cases hv with ⟨n, rfl, rfl, sl, hsl, hn⟩ | ⟨f, k, x, hd, hk, hx, hnew, rfl, rfl, _⟩
        · exact ⟨rfl, rfl, fun _ _ => rfl, e, he, rfl, ha, hs, sl, by simpa using hsl, hn⟩
        · rw [hp] at hd
          obtain rfl := Option.some.inj hd
          refine ⟨rfl, rfl, fun i hi => getElem?_modify_ne _ (Ne.symm hi), _, getElem?_modify_self _ he, rfl, ha, ?_, ⟨k, x.type, name⟩, by simp, rfl⟩
          intro j sl hj
          rcases getElem?_push hj with hj | ⟨_, rfl⟩
          · exact hs j sl hj
          · exact ⟨x, hk, hx⟩
    obtain ⟨k1, k2, k3, e', k4, k5, k6, k7, sl, k8, k9⟩ := key
    rw [Int.toNat_natCast, k4, Option.bind_some, k8, Option.bind_some] at h
    obtain ⟨x, hx, hxn⟩ := k7 _ sl k8
    rw [hx] at h
    simp only at h
    have fin' : ∀ (st : Option Int), (match x.comp.level with | some l => some l | none => stale) = st →
        (match (if ud = -1 then st else some ud) with
          | none => (Except.error Err.ub : Except Err (State × Int × Int × Option Int))
          | some l => .ok (t₁, (if us = -1 then x.comp.shuffle else us), l, st)) = .ok (t', sh, l, stale') →
        t' = t₁ ∧ stale' = st ∧ (some l = if ud = -1 then st else some ud) ∧ sh = if us = -1 then x.comp.shuffle else us := by
      intro st _ h
      cases hu : (if ud = -1 then st else some ud) with
      | none => rw [hu] at h; simp at h
      | some l₀ =>
        rw [hu] at h
        simp only [Except.ok.injEq, Prod.mk.injEq] at h
        obtain ⟨rfl, rfl, rfl, rfl⟩ := h
        exact ⟨rfl, rfl, rfl, rfl⟩
    obtain ⟨rfl, h1, h2, h3⟩ := fin' _ rfl h
    exact ⟨k1, k2, ⟨e', k4, k5, k6, k7⟩, k3, x, ⟨_, hx⟩, hxn.trans k9, h1, by rw [h1]; exact h2, h3⟩

/-- Changing the compression of the next output variable keeps what is known -/
theorem LoopInv.next {s t t' : State} {fidIn fidOut : Nat} {pin pout : Name} {vars : List Slot} {fin fout : Nc} {ud us : Int} {k : Nat} {sh l : Int} {v : Var}
    (I : LoopInv s t fidIn fidOut pin pout vars fin fout ud us k) (hne : pin ≠ pout) (hv : fout.vars[k]? = some v)
    (hw : Wanted ud us (lookupVar fin v.name) v.comp ⟨sh, if l = 0 then none else some l⟩)
    (h : setComp t pout k sh l = .ok t') : LoopInv s t' fidIn fidOut pin pout vars fin fout ud us (k + 1) := by
  obtain ⟨f, hf, _, _, _, rfl⟩ := setComp_ok h
  obtain ⟨g, hg, hgf, hg'⟩ := I.dout
  rw [hf] at hg
  obtain rfl := Option.some.inj hg
  refine ⟨I.inn, I.out, ?_, ?_, ⟨_, setDisk_same _ _ _, hgf, ?_⟩⟩
  · simp only; rw [setDisk_other _ _ hne]; exact I.din
  · intro p hp; simp only; rw [setDisk_other _ _ hp]; exact I.oth p hp
  · intro i
    have hk : f.vars[k]? = some v := by rw [(hg' k).1 (Nat.le_refl _), hv]
    refine ⟨?_, ?_⟩
    · intro hi
      simp only
      rw [getElem?_modify_ne _ (by omega)]
      exact (hg' i).1 (by omega)
    · intro hi w hw'
      by_cases hik : i = k
      · subst hik
        rw [hv] at hw'
        obtain rfl := Option.some.inj hw'
        exact ⟨_, getElem?_modify_self _ hk, rfl, rfl, hw⟩
      · simp only
        rw [getElem?_modify_ne _ (by omega)]
        exact (hg' i).2 (by omega) w hw'

/-- One pass of the loop -/
theorem deflOne_inv {root : Bool} {s t t' : State} {fidIn fidOut : Nat} {pin pout : Name} {vars : List Slot} {fin fout : Nc} {ud us : Int} {k : Nat}
    {stale stale' : Option Int}
    (hne : pin ≠ pout) (hio : fidIn ≠ fidOut) (al : ∀ (j : Nat) (sl : Slot), vars[j]? = some sl → sl.fldid = j)
    (hn : (fin.vars.map (·.name)).Nodup)
    (H1 : ud = -1 → ∀ v ∈ fin.vars, v.comp.level.isSome)
    (H2 : (ud = -1 ↔ us = -1) ∨ ∀ v ∈ fout.vars, (lookupVar fin v.name).isSome)
    (I : LoopInv s t fidIn fidOut pin pout vars fin fout ud us k)
    (h : deflOne root fidIn fidOut pin pout ud us t stale k = .ok (t', stale')) :
    LoopInv s t' fidIn fidOut pin pout vars fin fout ud us (k + 1) := by
  obtain ⟨ei, hei, hpi, hai, hsi⟩ := I.inn
  obtain ⟨eo, heo, hvo⟩ := I.out
  obtain ⟨g, hg, hgf, hg'⟩ := I.dout
  unfold deflOne at h
  rw [I.din, hg, heo, Option.bind_some, Option.bind_some, hvo, (hg' k).1 (Nat.le_refl _)] at h
  cases hv : fout.vars[k]? with
  | none => rw [hv] at h; simp at h
  | some v =>
    cases hsl : vars[k]? with
    | none => rw [hv, hsl] at h; simp at h
    | some sl =>
      have hk : sl.fldid = k := al k sl hsl
      rw [hv, hsl] at h
      simp only at h
      rw [hk] at h
      by_cases hu : ud = -1 ∨ us = -1
      · rw [if_pos hu] at h
        by_cases hlong : 64 ≤ v.name.length
        · rw [if_pos hlong] at h; simp at h
        rw [if_neg hlong] at h
        by_cases hnone : (varNamed fin v.name).isNone = true
        · rw [if_pos hnone] at h
          simp only [Except.ok.injEq, Prod.mk.injEq] at h
          obtain ⟨rfl, _⟩ := h
          have hlk := lookupVar_none hnone
          have hboth : ud = -1 ∧ us = -1 := by
            rcases H2 with H2 | H2
            · rcases hu with hu | hu
              · exact ⟨hu, H2.1 hu⟩
              · exact ⟨H2.2 hu, hu⟩
            · have := H2 v (mem_of_getElem? hv)
              rw [hlk] at this; simp at this
          refine ⟨I.inn, I.out, I.din, I.oth, ⟨g, hg, hgf, ?_⟩⟩
          intro i
          refine ⟨fun hi => (hg' i).1 (by omega), ?_⟩
          intro hi w hw
          by_cases hik : i = k
          · subst hik
            rw [hv] at hw
            obtain rfl := Option.some.inj hw
            refine ⟨v, by rw [(hg' i).1 (Nat.le_refl _), hv], rfl, rfl, ?_⟩
            rw [hlk]
            exact ⟨by rw [if_pos hboth.1], by rw [if_pos hboth.2]⟩
          · exact (hg' i).2 (by omega) w hw
        · rw [if_neg hnone] at h
          cases hlo : lookup root t (fidIn : Int) fin v.name stale ud us with
          | error x => rw [hlo] at h; simp at h
          | ok q =>
            obtain ⟨t₁, sh, l, st⟩ := q
            rw [hlo] at h
            simp only at h
            obtain ⟨d1, d2, ⟨e', d3, d4, d5, d6⟩, d7, x, ⟨j, hx⟩, hxn, hst, hl, hsh⟩ :=
              lookup_ok hei (by rw [hpi]; exact I.din) hsi hai hlo
            cases hsc : setComp t₁ pout k sh l with
            | error y => rw [hsc] at h; simp at h
            | ok t₂ =>
              rw [hsc] at h
              simp only [Except.ok.injEq, Prod.mk.injEq] at h
              obtain ⟨rfl, _⟩ := h
              have I₁ : LoopInv s t₁ fidIn fidOut pin pout vars fin fout ud us k :=
                ⟨⟨e', d3, by rw [d4]; exact hpi, d5, d6⟩, ⟨eo, by rw [d7 fidOut (Ne.symm hio)]; exact heo, hvo⟩, by rw [d1]; exact I.din,
                  fun p hp => by rw [d1]; exact I.oth p hp, ⟨g, by rw [d1]; exact hg, hgf, hg'⟩⟩
              refine I₁.next hne hv ?_ hsc
              have hlk : lookupVar fin v.name = some x := by rw [← hxn]; exact lookupVar_of hn hx
              rw [hlk]
              refine ⟨?_, by simp only; rw [hsh]⟩
              rw [strength_new]
              by_cases hud : ud = -1
              · rw [if_pos hud] at hl ⊢
                obtain ⟨l', hl'⟩ := Option.isSome_iff_exists.1 (H1 hud x (mem_of_getElem? hx))
                rw [hst, hl'] at hl
                simp only [Option.some.injEq] at hl
                simp [strength, hl', hl]
              · rw [if_neg hud] at hl ⊢
                exact Option.some.inj hl
      · rw [if_neg hu] at h
        cases hsc : setComp t pout k us ud with
        | error y => rw [hsc] at h; simp at h
        | ok t₂ =>
          rw [hsc] at h
          simp only [Except.ok.injEq, Prod.mk.injEq] at h
          obtain ⟨rfl, _⟩ := h
          refine I.next hne hv ?_ hsc
          refine ⟨?_, ?_⟩
          · rw [strength_new, if_neg (fun h => hu (Or.inl h))]
          · rw [if_neg (fun h => hu (Or.inr h))]

theorem deflLoop_inv {root : Bool} {s s' : State} {fidIn fidOut : Nat} {pin pout : Name} {vars : List Slot} {fin fout : Nc} {ud us : Int}
    (hne : pin ≠ pout) (hio : fidIn ≠ fidOut) (al : ∀ (j : Nat) (sl : Slot), vars[j]? = some sl → sl.fldid = j)
    (hn : (fin.vars.map (·.name)).Nodup)
    (H1 : ud = -1 → ∀ v ∈ fin.vars, v.comp.level.isSome)
    (H2 : (ud = -1 ↔ us = -1) ∨ ∀ v ∈ fout.vars, (lookupVar fin v.name).isSome) :
    ∀ (m k : Nat) (t : State) (stale : Option Int), LoopInv s t fidIn fidOut pin pout vars fin fout ud us k →
      deflLoop root fidIn fidOut pin pout ud us (List.range' k m) t stale = .ok s' → LoopInv s s' fidIn fidOut pin pout vars fin fout ud us (k + m) := by
  intro m
  induction m with
  | zero =>
    intro k t stale I h
    simp only [List.range'_zero, deflLoop, Except.ok.injEq] at h
    rw [← h]; exact I
  | succ m ih =>
    intro k t stale I h
    rw [List.range'_succ] at h
    unfold deflLoop at h
    cases h1 : deflOne root fidIn fidOut pin pout ud us t stale k with
    | error x => rw [h1] at h; simp at h
    | ok q =>
      obtain ⟨t₁, st⟩ := q
      rw [h1] at h
      have := ih (k + 1) t₁ st (deflOne_inv hne hio al hn H1 H2 I h1) h
      rwa [show k + (m + 1) = k + 1 + m by omega]

end Verif.MppIo
