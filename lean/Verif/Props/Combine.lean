import Verif.Lemmas.CombineOut
/-
C10, C11, C12, C15: the output of mppnccombine.

`mppnccombine zero missing junk bf fuel files` is the run on the list `files` with blocking factor
`bf`; `(st.var n).out idx` is what variable `n` of the output file has at index `idx` (`none`:
nothing has been written there). `fuel` only has to be larger than the number of records.
-/
namespace Verif
open Spec

section
variable {α : Type} {files : List (NcFile α)} {nd : Nat} {R : Option Nat}
  {sh : List (List Nat × Option Nat)} {full : Nat → Nat} {dec : Nat → Bool}
  {iv : Nat → Nat → Int × Int}

/-- C10. A variable with a decomposed dimension has, at every point of the whole domain and every
record, the value of the last input file whose piece contains that point. A point in no piece has the
fill value: the missing value of the first file if option -m was given, else zero. Nothing is written
outside the whole domain. The run ends without error. -/
theorem C10_value_of_owner (h : PieceSet files nd R sh full dec iv) (zero : α) (missing : Bool)
    (junk : Int) (bf fuel : Nat) (hfuel : numRecs R full < fuel) :
    ∃ st, mppnccombine zero missing junk bf fuel files = .ok st ∧ st.err = false ∧
      ∀ (f0 : NcFile α) (n : Nat) (v : NcVar α), files[0]? = some f0 → f0.vars[n]? = some v →
        v.dims.any dec = true → ∀ idx,
          (¬ InBox (v.dims.map full) idx → (st.var n).out idx = none) ∧
          (InBox (v.dims.map full) idx →
            ((∀ k, k < files.length → ∀ l, ¬ LocalIdx (iv k) v.dims idx l) →
              (st.var n).out idx = some (if missing then v.missing.getD zero else zero)) ∧
            (∀ (k : Nat) (f : NcFile α) (w : NcVar α) l, files[k]? = some f → f.vars[n]? = some w →
              LocalIdx (iv k) v.dims idx l →
              (∀ k', k < k' → k' < files.length → ∀ l', ¬ LocalIdx (iv k') v.dims idx l') →
              (st.var n).out idx = some (w.val l))) := by
  obtain ⟨st, a1, a2, -, a4⟩ := combine_out h zero missing junk bf fuel hfuel
  refine ⟨st, a1, a2, fun f0 n v hf0 hv hd idx => ?_⟩
  obtain ⟨b1, -, b3, b4⟩ := a4 f0 n v hf0 hv idx
  exact ⟨b1, fun hb => ⟨b3 hb hd, b4 hb hd⟩⟩

/-- C15. A variable without decomposed dimension has, at every index and in every record, the value
of the first input file, whatever the other files hold, and nothing outside its shape. -/
theorem C15_first_file (h : PieceSet files nd R sh full dec iv) (zero : α) (missing : Bool)
    (junk : Int) (bf fuel : Nat) (hfuel : numRecs R full < fuel) :
    ∃ st, mppnccombine zero missing junk bf fuel files = .ok st ∧
      ∀ (f0 : NcFile α) (n : Nat) (v : NcVar α), files[0]? = some f0 → f0.vars[n]? = some v →
        v.dims.any dec = false → ∀ idx,
          (InBox (v.dims.map full) idx → (st.var n).out idx = some (v.val idx)) ∧
          (¬ InBox (v.dims.map full) idx → (st.var n).out idx = none) := by
  obtain ⟨st, a1, -, -, a4⟩ := combine_out h zero missing junk bf fuel hfuel
  refine ⟨st, a1, fun f0 n v hf0 hv hd idx => ?_⟩
  obtain ⟨b1, b2, -, -⟩ := a4 f0 n v hf0 hv idx
  exact ⟨fun hb => b2 hb hd, b1⟩

/-- Either no piece contains the point or there is a last one that does. -/
theorem last_owner (P : Nat → List Nat → Prop) : ∀ m : Nat,
    (∀ k, k < m → ∀ l, ¬ P k l) ∨
    ∃ k l, k < m ∧ P k l ∧ ∀ k', k < k' → k' < m → ∀ l', ¬ P k' l' := by
  intro m
  induction m with
  | zero => exact Or.inl (fun k hk => by omega)
  | succ m ih =>
    by_cases hm : ∃ l, P m l
    · obtain ⟨l, hl⟩ := hm
      exact Or.inr ⟨m, l, by omega, hl, fun k' h1 h2 => by omega⟩
    · rcases ih with ih | ⟨k, l, h1, h2, h3⟩
      · refine Or.inl (fun k hk l hl => ?_)
        by_cases hkm : k = m
        · subst hkm; exact hm ⟨l, hl⟩
        · exact ih k (by omega) l hl
      · refine Or.inr ⟨k, l, by omega, h2, fun k' h4 h5 l' hl' => ?_⟩
        by_cases hkm : k' = m
        · subst hkm; exact hm ⟨l', hl'⟩
        · exact h3 k' h4 (by omega) l' hl'

theorem file_var (h : PieceSet files nd R sh full dec iv) {f0 : NcFile α} {n : Nat} {v : NcVar α}
    (h0 : files[0]? = some f0) (hv : f0.vars[n]? = some v) {k : Nat} (hk : k < files.length) :
    ∃ (f : NcFile α) (w : NcVar α), files[k]? = some f ∧ f.vars[n]? = some w ∧ w.dims = v.dims := by
  obtain ⟨f, hf⟩ : ∃ f, files[k]? = some f := ⟨_, List.getElem?_eq_getElem hk⟩
  have hs := sh_get h h0 hv
  obtain ⟨-, -, h3, -⟩ := h.shape f (List.mem_of_getElem? hf)
  rw [← h3, List.getElem?_map] at hs
  cases hw : f.vars[n]? with
  | none => rw [hw] at hs; cases hs
  | some w =>
    rw [hw] at hs
    simp only [Option.map_some, Option.some.injEq, Prod.mk.injEq] at hs
    exact ⟨f, w, hf, hw, hs.1⟩

/-- C11. The blocking factor (option -k) has no influence: for any two blocking factors (0 stands for
the automatic choice) both runs end without error and every variable of the output has the same
values in every record. -/
theorem C11_blocking_factor (h : PieceSet files nd R sh full dec iv) (zero : α) (missing : Bool)
    (junk : Int) (bf bf' fuel fuel' : Nat) (hfuel : numRecs R full < fuel)
    (hfuel' : numRecs R full < fuel') :
    ∃ st st', mppnccombine zero missing junk bf fuel files = .ok st ∧
      mppnccombine zero missing junk bf' fuel' files = .ok st' ∧
      st.err = false ∧ st'.err = false ∧ st.nrecs = st'.nrecs ∧
      ∀ n, n < sh.length → (st.var n).out = (st'.var n).out := by
  have hM : 0 < files.length := List.length_pos_of_ne_nil h.ne
  obtain ⟨st, a1, a2, a3, a4⟩ := combine_out h zero missing junk bf fuel hfuel
  obtain ⟨st', b1, b2, b3, b4⟩ := combine_out h zero missing junk bf' fuel' hfuel'
  refine ⟨st, st', a1, b1, a2, b2, by rw [a3, b3], ?_⟩
  intro n hn
  obtain ⟨f0, hf0⟩ : ∃ f, files[0]? = some f := ⟨_, List.getElem?_eq_getElem hM⟩
  obtain ⟨v, hv⟩ : ∃ v, f0.vars[n]? = some v := by
    obtain ⟨-, -, h3, -⟩ := h.shape f0 (List.mem_of_getElem? hf0)
    exact ⟨_, List.getElem?_eq_getElem (by rw [← h3] at hn; simpa using hn)⟩
  funext idx
  obtain ⟨p1, p2, p3, p4⟩ := a4 f0 n v hf0 hv idx
  obtain ⟨q1, q2, q3, q4⟩ := b4 f0 n v hf0 hv idx
  by_cases hb : InBox (v.dims.map full) idx
  · cases hd : v.dims.any dec with
    | false => rw [p2 hb hd, q2 hb hd]
    | true =>
      rcases last_owner (fun k l => LocalIdx (iv k) v.dims idx l) files.length with hno | hl
      · rw [p3 hb hd hno, q3 hb hd hno]
      · obtain ⟨k, l, h1, h2, h3⟩ := hl
        obtain ⟨f, w, hf, hw, -⟩ := file_var h hf0 hv h1
        rw [p4 hb hd k f w l hf hw h2 h3, q4 hb hd k f w l hf hw h2 h3]
  · rw [p1 hb, q1 hb]

/-- C11, what happens without records: a first file whose record dimension has length 0 makes the
program divide by zero, for every blocking factor and whatever the other files are. (`PieceSet` asks
for at least one record.) -/
theorem C11_zero_records_crash (zero : α) (missing : Bool) (junk : Int) (bf fuel : Nat)
    (f : NcFile α) (rest : List (NcFile α)) (r : Nat) (hr : f.recdim = some r)
    (h0 : f.dims[r]? = some 0) (hn : f.numFiles ≠ none) (hi : outInfo missing f ≠ none) :
    mppnccombine zero missing junk bf (fuel + 1) (f :: rest) = .error .divZero := by
  obtain ⟨m, hm⟩ := Option.ne_none_iff_exists'.1 hn
  obtain ⟨i, hi⟩ := Option.ne_none_iff_exists'.1 hi
  have hrc : recCount f = some 0 := by simp [recCount, hr, h0]
  have hset : ∀ b nb, setRecs 0 1 b nb = .error .divZero := by
    intro b nb
    unfold setRecs
    rw [if_pos rfl, if_pos (by split <;> (try split) <;> omega)]
  unfold mppnccombine
  simp only [blockLoop, fileLoop, processFile, hm, Option.getD_some, hi, processVars, hrc, hset]
  simp

end

/-- C12. If the files are processed in another order, variable `n` of the output is the same provided
that files whose pieces have a point of it in common agree there (in particular if the pieces are
disjoint), and that they agree on the missing value. The files are given with their intervals. -/
theorem C12_file_order {α : Type} (ps ps' : List (NcFile α × (Nat → Int × Int))) (hperm : ps.Perm ps')
    {nd : Nat} {R : Option Nat} {sh : List (List Nat × Option Nat)} {full : Nat → Nat}
    {dec : Nat → Bool}
    (h : PieceSet (ps.map Prod.fst) nd R sh full dec
      (fun k => ((ps.map Prod.snd)[k]?).getD (fun _ => (0, 0))))
    (zero : α) (missing : Bool) (junk : Int) (bf fuel : Nat) (hfuel : numRecs R full < fuel)
    (n : Nat) (p : List Nat × Option Nat) (hp : sh[n]? = some p) (hdec : p.1.any dec = true)
    (hagree : ∀ a ∈ ps, ∀ b ∈ ps, ∀ (v w : NcVar α), a.1.vars[n]? = some v → b.1.vars[n]? = some w →
      ∀ g l l', LocalIdx a.2 p.1 g l → LocalIdx b.2 p.1 g l' → v.val l = w.val l')
    (hmiss : ∀ a ∈ ps, ∀ b ∈ ps, ∀ (v w : NcVar α), a.1.vars[n]? = some v → b.1.vars[n]? = some w →
      v.missing = w.missing) :
    ∃ st st', mppnccombine zero missing junk bf fuel (ps.map Prod.fst) = .ok st ∧
      mppnccombine zero missing junk bf fuel (ps'.map Prod.fst) = .ok st' ∧
      (st.var n).out = (st'.var n).out := by
  -- the permuted list is a set of pieces as well
  have hget : ∀ (qs : List (NcFile α × (Nat → Int × Int))) (k : Nat) (f : NcFile α),
      (qs.map Prod.fst)[k]? = some f → ∃ q ∈ qs, qs[k]? = some q ∧ q.1 = f ∧
        ((qs.map Prod.snd)[k]?).getD (fun _ => (0, 0)) = q.2 := by
    intro qs k f hf
    rw [List.getElem?_map] at hf
    cases hq : qs[k]? with
    | none => rw [hq] at hf; cases hf
    | some q =>
      rw [hq] at hf
      simp only [Option.map_some, Option.some.injEq] at hf
      exact ⟨q, List.mem_of_getElem? hq, rfl, hf, by simp [hq]⟩
  have hput : ∀ (qs : List (NcFile α × (Nat → Int × Int))) (q : NcFile α × (Nat → Int × Int)),
      q ∈ qs → ∃ k : Nat, qs[k]? = some q ∧ (qs.map Prod.fst)[k]? = some q.1 ∧
        ((qs.map Prod.snd)[k]?).getD (fun _ => (0, 0)) = q.2 := by
    intro qs q hq
    obtain ⟨k, hk, rfl⟩ := List.mem_iff_getElem.1 hq
    exact ⟨k, by simp [hk], by simp [hk], by simp [hk]⟩
  have hlen : (ps'.map Prod.fst).length = (ps.map Prod.fst).length := by
    simp [hperm.length_eq]
  have hall : ∀ (k : Nat) (f : NcFile α), (ps'.map Prod.fst)[k]? = some f →
      ∃ k' : Nat, (ps.map Prod.fst)[k']? = some f ∧
        ((ps.map Prod.snd)[k']?).getD (fun _ => (0, 0)) =
        ((ps'.map Prod.snd)[k]?).getD (fun _ => (0, 0)) := by
    intro k f hf
    obtain ⟨q, hq, -, h2, h3⟩ := hget ps' k f hf
    obtain ⟨k', -, h4, h5⟩ := hput ps q (hperm.mem_iff.2 hq)
    exact ⟨k', by rw [h4, h2], by rw [h5, h3]⟩
  have h' : PieceSet (ps'.map Prod.fst) nd R sh full dec
      (fun k => ((ps'.map Prod.snd)[k]?).getD (fun _ => (0, 0))) := by
    refine ⟨?_, ?_, h.dim_lt, h.rec_first, h.coord_dims, h.records, ?_, ?_, ?_⟩
    · intro hc
      apply h.ne
      rw [← List.length_eq_zero_iff, ← hlen, hc]; rfl
    · intro f hf
      rw [hlen]
      exact h.shape f ((hperm.map Prod.fst).mem_iff.2 hf)
    · intro k f hf
      obtain ⟨k', h1, h2⟩ := hall k f hf
      have := h.size k' f h1
      simp only [h2] at this
      exact this
    · intro k f hf
      obtain ⟨k', h1, h2⟩ := hall k f hf
      have := h.undecomposed k' f h1
      simp only [h2] at this
      exact this
    · intro k f hf
      obtain ⟨k', h1, h2⟩ := hall k f hf
      have := h.decomposed k' f h1
      simp only [h2] at this
      exact this
  obtain ⟨st, a1, a2, a3, a4⟩ := combine_out h zero missing junk bf fuel hfuel
  obtain ⟨st', b1, b2, b3, b4⟩ := combine_out h' zero missing junk bf fuel hfuel
  refine ⟨st, st', a1, b1, ?_⟩
  have first : ∀ (qs : List (NcFile α × (Nat → Int × Int))),
      PieceSet (qs.map Prod.fst) nd R sh full dec
        (fun k => ((qs.map Prod.snd)[k]?).getD (fun _ => (0, 0))) →
      ∃ q ∈ qs, ∃ v : NcVar α, (qs.map Prod.fst)[0]? = some q.1 ∧ q.1.vars[n]? = some v ∧
        v.dims = p.1 := by
    intro qs hqs
    have hM : 0 < (qs.map Prod.fst).length := List.length_pos_of_ne_nil hqs.ne
    obtain ⟨f0, hf0⟩ : ∃ f, (qs.map Prod.fst)[0]? = some f := ⟨_, List.getElem?_eq_getElem hM⟩
    obtain ⟨q, hq, -, h2, h3⟩ := hget qs 0 f0 hf0
    subst h2
    obtain ⟨-, -, h3, -⟩ := hqs.shape q.1 (List.mem_of_getElem? hf0)
    have hs := hp
    rw [← h3, List.getElem?_map] at hs
    cases hw : q.1.vars[n]? with
    | none => rw [hw] at hs; cases hs
    | some w =>
      rw [hw] at hs
      simp only [Option.map_some, Option.some.injEq] at hs
      exact ⟨q, hq, w, hf0, hw, by rw [← hs]⟩
  obtain ⟨q, hq, v, f1, f2, f3⟩ := first ps h
  obtain ⟨q', hq', v', f1', f2', f3'⟩ := first ps' h'
  have hmv : v.missing = v'.missing := hmiss q hq q' (hperm.mem_iff.2 hq') v v' f2 f2'
  funext idx
  obtain ⟨p1, -, p3, p4⟩ := a4 q.1 n v f1 f2 idx
  obtain ⟨q1, -, q3, q4⟩ := b4 q'.1 n v' f1' f2' idx
  rw [f3] at p1 p3 p4
  rw [f3'] at q1 q3 q4
  by_cases hb : InBox (p.1.map full) idx
  · rcases last_owner (fun k l => LocalIdx (((ps.map Prod.snd)[k]?).getD (fun _ => (0, 0))) p.1 idx l)
      (ps.map Prod.fst).length with hno | ⟨k, l, h1, h2, h3⟩
    · rw [p3 hb hdec hno, q3 hb hdec, hmv]
      intro k hk l hl
      obtain ⟨f, hf⟩ : ∃ f, (ps'.map Prod.fst)[k]? = some f := ⟨_, List.getElem?_eq_getElem hk⟩
      obtain ⟨k', h4, h5⟩ := hall k f hf
      have hk' : k' < (ps.map Prod.fst).length := by
        by_contra hc
        rw [List.getElem?_eq_none (by omega)] at h4; cases h4
      exact hno k' hk' l (by rw [h5]; exact hl)
    · rcases last_owner (fun k l => LocalIdx (((ps'.map Prod.snd)[k]?).getD (fun _ => (0, 0))) p.1 idx l)
        (ps'.map Prod.fst).length with hno' | ⟨k', l', h1', h2', h3'⟩
      · exfalso
        obtain ⟨f, hf⟩ : ∃ f, (ps.map Prod.fst)[k]? = some f := ⟨_, List.getElem?_eq_getElem h1⟩
        obtain ⟨a, ha, -, -, e⟩ := hget ps k f hf
        obtain ⟨k'', -, c2, c3⟩ := hput ps' a (hperm.mem_iff.1 ha)
        have hk'' : k'' < (ps'.map Prod.fst).length := by
          by_contra hc
          rw [List.getElem?_eq_none (by omega)] at c2; cases c2
        refine hno' k'' hk'' l ?_
        rw [c3, ← e]; exact h2
      · obtain ⟨f, w, hf, hw, -⟩ := file_var h f1 f2 h1
        obtain ⟨f', w', hf', hw', -⟩ := file_var h' f1' f2' h1'
        rw [p4 hb hdec k f w l hf hw h2 h3, q4 hb hdec k' f' w' l' hf' hw' h2' h3']
        obtain ⟨a, ha, -, ea, ea'⟩ := hget ps k f hf
        obtain ⟨b, hb', -, eb, eb'⟩ := hget ps' k' f' hf'
        rw [ea'] at h2
        rw [eb'] at h2'
        subst ea eb
        rw [hagree a ha b (hperm.mem_iff.2 hb') w w' hw hw' idx l l' h2 h2']
  · rw [p1 hb, q1 hb]

/-! ### A concrete set of files

Dimension 0 is time (3 records), dimension 1 is x with 6 points in the whole domain; piece 0 has
points 0..2, piece 1 points 3..4, point 5 is missing. Variables: x itself, a record variable over
(time, x) and a scalar. The attribute counts from 1. -/

def exPiece (lo hi : Nat) (vals : List Nat → Nat) (s : Nat) : NcFile Nat :=
  { dims := [3, hi - lo + 1], recdim := some 0, numFiles := some 2
    vars := [⟨[1], some 1, some (1, 6, lo + 1, hi + 1), none, fun i => 10 * (lo + i.headD 0)⟩,
             ⟨[0, 1], none, none, some 99, vals⟩,
             ⟨[], none, none, none, fun _ => s⟩] }

def exFiles : List (NcFile Nat) :=
  [exPiece 0 2 (fun i => 100 + flat [3, 3] i) 7, exPiece 3 4 (fun i => 200 + flat [3, 2] i) 8]

def exIv : Nat → Nat → Int × Int
  | _, 0 => (0, 2)
  | 0, _ => (0, 2)
  | _, _ => (3, 4)

/-- The hypothesis of C10, C11, C15 holds for the files. -/
theorem exFiles_pieceSet : PieceSet exFiles 2 (some 0) [([1], some 1), ([0, 1], none), ([], none)]
    (fun d => if d = 0 then 3 else 6) (fun d => decide (d = 1)) exIv := by
  have key : ∀ (k : Nat) (f : NcFile Nat), exFiles[k]? = some f →
      (k = 0 ∧ f = exPiece 0 2 (fun i => 100 + flat [3, 3] i) 7) ∨
      (k = 1 ∧ f = exPiece 3 4 (fun i => 200 + flat [3, 2] i) 8) := by
    intro k f h
    match k, h with
    | 0, h => exact Or.inl ⟨rfl, (Option.some.inj h).symm⟩
    | 1, h => exact Or.inr ⟨rfl, (Option.some.inj h).symm⟩
    | k + 2, h => simp [exFiles] at h
  refine ⟨by simp [exFiles], ?_, by simp, by simp, by simp, by simp, ?_, ?_, ?_⟩
  · intro f hf
    simp only [exFiles, List.mem_cons, List.not_mem_nil, or_false] at hf
    rcases hf with rfl | rfl <;> exact ⟨rfl, rfl, rfl, rfl⟩
  · intro k f h d hd
    have hd : d = 0 ∨ d = 1 := by omega
    rcases key k f h with ⟨rfl, rfl⟩ | ⟨rfl, rfl⟩ <;> rcases hd with rfl | rfl <;>
      simp [exIv, exPiece]
  · intro k f h d hd hdec
    have hd : d = 0 := by
      have : d ≠ 1 := by simpa using hdec
      omega
    subst hd
    rcases key k f h with ⟨rfl, rfl⟩ | ⟨rfl, rfl⟩ <;> simp [exIv, exPiece]
  · intro k f h d hd hdec
    have hd : d = 1 := by simpa using hdec
    subst hd
    rcases key k f h with ⟨rfl, rfl⟩ | ⟨rfl, rfl⟩
    · exact ⟨⟨_, List.mem_cons_self .., rfl⟩, 1, by simp [exIv, exPiece]⟩
    · exact ⟨⟨_, List.mem_cons_self .., rfl⟩, 1, by simp [exIv, exPiece]⟩

/-- The run with blocking factor 2 (a full block and a partial block) and option -m: record 1 of the
record variable, the coordinate variable, the scalar, and a point outside. -/
example : (match mppnccombine 0 true 0 2 4 exFiles with
    | .ok st => some (st.nblocks, st.err,
        [0, 1, 2, 3, 4, 5].map (fun x => (st.var 1).out [1, x]),
        [0, 1, 2, 3, 4, 5].map (fun x => (st.var 0).out [x]), (st.var 2).out [], (st.var 1).out [1, 6])
    | .error _ => none) =
    some (2, false, [some 103, some 104, some 105, some 202, some 203, some 99],
      [some 0, some 10, some 20, some 30, some 40, some 0], some 7, none) := by rfl

/-- The other order gives the same decomposed variables, the scalar comes from the other file. -/
example : (match mppnccombine 0 true 0 1 4 exFiles.reverse with
    | .ok st => some (st.nblocks, [0, 1, 2, 3, 4, 5].map (fun x => (st.var 1).out [1, x]),
        (st.var 2).out [])
    | .error _ => none) =
    some (3, [some 103, some 104, some 105, some 202, some 203, some 99], some 8) := by decide

theorem localIdx_unique (iv : Nat → Int × Int) : ∀ (ds g l l' : List Nat), LocalIdx iv ds g l →
    LocalIdx iv ds g l' → l = l' := by
  intro ds
  induction ds with
  | nil =>
    intro g l l' h h'
    cases g <;> cases l <;> cases l' <;> simp [LocalIdx] at h h' ⊢
  | cons d ds ih =>
    intro g l l' h h'
    cases g with
    | nil => simp [LocalIdx] at h
    | cons a g =>
      cases l with
      | nil => simp [LocalIdx] at h
      | cons b l =>
        cases l' with
        | nil => simp [LocalIdx] at h'
        | cons c l' =>
          obtain ⟨-, -, e1, e2⟩ := h
          obtain ⟨-, -, e3, e4⟩ := h'
          rw [ih g l l' e2 e4]
          congr 1; omega

/-- The hypotheses of C12 hold for the record variable of these files, which are disjoint. -/
example (bf : Nat) : ∃ st st', mppnccombine 0 true 0 bf 4 exFiles = .ok st ∧
    mppnccombine 0 true 0 bf 4 exFiles.reverse = .ok st' ∧ (st.var 1).out = (st'.var 1).out := by
  have hset : PieceSet (([(exPiece 0 2 (fun i => 100 + flat [3, 3] i) 7, exIv 0),
      (exPiece 3 4 (fun i => 200 + flat [3, 2] i) 8, exIv 1)] :
        List (NcFile Nat × (Nat → Int × Int))).map Prod.fst) 2 (some 0)
      [([1], some 1), ([0, 1], none), ([], none)] (fun d => if d = 0 then 3 else 6)
      (fun d => decide (d = 1))
      (fun k => (([(exPiece 0 2 (fun i => 100 + flat [3, 3] i) 7, exIv 0),
        (exPiece 3 4 (fun i => 200 + flat [3, 2] i) 8, exIv 1)].map Prod.snd)[k]?).getD
          (fun _ => (0, 0))) := by
    obtain ⟨a1, a2, a3, a4, a5, a6, a7, a8, a9⟩ := exFiles_pieceSet
    have hk : ∀ (k : Nat) (f : NcFile Nat), exFiles[k]? = some f →
        (([(exPiece 0 2 (fun i => 100 + flat [3, 3] i) 7, exIv 0),
        (exPiece 3 4 (fun i => 200 + flat [3, 2] i) 8, exIv 1)].map Prod.snd)[k]?).getD
          (fun _ => (0, 0)) = exIv k := by
      intro k f hf
      match k, hf with
      | 0, _ => rfl
      | 1, _ => rfl
      | k + 2, hf => simp [exFiles] at hf
    refine ⟨a1, a2, a3, a4, a5, a6, ?_, ?_, ?_⟩
    · intro k f hf; have := a7 k f hf; rw [← hk k f hf] at this; exact this
    · intro k f hf; have := a8 k f hf; rw [← hk k f hf] at this; exact this
    · intro k f hf; have := a9 k f hf; rw [← hk k f hf] at this; exact this
  have hdisj : ∀ (g l l' : List Nat), LocalIdx (exIv 0) [0, 1] g l → ¬ LocalIdx (exIv 1) [0, 1] g l' := by
    intro g l l' h h'
    match g, l, l', h, h' with
    | _ :: b :: _, _ :: _ :: _, _ :: _ :: _, ⟨_, _, _, _, e2, _⟩, ⟨_, _, _, e3, _⟩ =>
      simp [exIv] at e2 e3; omega
    | [_], _ :: _, _, h, _ => exact absurd h.2.2.2 (by simp [LocalIdx])
  refine C12_file_order _ _ (List.Perm.swap _ _ []) hset 0 true 0 bf 4 (by simp [numRecs]) 1
    ([0, 1], none) rfl rfl ?_ ?_
  · intro a ha b hb v w hv hw g l l' hl hl'
    simp only [List.mem_cons, List.not_mem_nil, or_false] at ha hb
    rcases ha with rfl | rfl <;> rcases hb with rfl | rfl
    · rw [hv] at hw; cases hw; rw [localIdx_unique _ _ g l l' hl hl']
    · exact absurd hl' (hdisj g l l' hl)
    · exact absurd hl (hdisj g l' l hl')
    · rw [hv] at hw; cases hw; rw [localIdx_unique _ _ g l l' hl hl']
  · intro a ha b hb v w hv hw
    simp only [List.mem_cons, List.not_mem_nil, or_false] at ha hb
    rcases ha with rfl | rfl <;> rcases hb with rfl | rfl <;>
      · simp [exPiece] at hv hw
        subst hv hw
        rfl

end Verif
