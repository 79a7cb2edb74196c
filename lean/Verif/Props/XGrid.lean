import Verif.Lemmas.XGrid
import Verif.Lemmas.Conserve
import Mathlib.Tactic.NormNum
/-
C30: the exchange grid and the number of threads. C31: capacity of the exchange grid arrays.

`create2dx2d g maxx nb sched` is the run of the threaded routines with `nb` thread blocks when the blocks take
steps in the order `sched`.
-/
namespace Verif.XGrid
open Verif.Spec Verif.Conserve

variable {β : Type} (g : Grids β)

/-- C30. The order in which the threads run does not matter: not for the result and not for whether the program
stops with an error. -/
theorem C30_schedule (maxx nb : Nat) (s1 s2 : List Nat) (h1 : Finishes g nb s1) (h2 : Finishes g nb s2) :
    create2dx2d g maxx nb s1 = create2dx2d g maxx nb s2 := by
  rcases create_eq g (maxx := maxx) h1 with ⟨a, e⟩ | ⟨⟨m, hm, a, b⟩, e⟩ <;>
  rcases create_eq g (maxx := maxx) h2 with ⟨a', e'⟩ | ⟨⟨m', hm', a', b'⟩, e'⟩
  · rw [e, e']
  · rcases a m' hm' with h | h
    · exact absurd h a'
    · omega
  · rcases a' m hm with h | h
    · exact absurd h a
    · omega
  · rw [e, e']

/-- C30. Whatever the number of threads, the result contains for every target cell exactly its exchange cells, in
the order of the source cells, and nothing else. -/
theorem C30_cells (maxx nb : Nat) (sched : List Nat) (hb : 0 < nb) (hf : Finishes g nb sched)
    {out : List (Option (Cell β))} (h : create2dx2d g maxx nb sched = .ok out) :
    ∃ cells : List (Cell β), out = cells.map some ∧ (∀ c ∈ cells, c.i2 < g.nx2 ∧ c.j2 < g.ny2) ∧
      ∀ i2 j2 : Nat, i2 < g.nx2 → j2 < g.ny2 →
        cells.filter (fun c => decide (c.i2 = i2 ∧ c.j2 = j2)) = cellsOf g i2 j2 := by
  rcases create_eq g (maxx := maxx) hf with ⟨_, e⟩ | ⟨_, e⟩
  · rw [e] at h
    injection h with h
    exact ⟨allCells g nb, h.symm, fun c hc => allCells_mem g hc, fun i2 j2 hi hj => allCells_filter g hb hi hj⟩
  · rw [e] at h; cases h

/-- C30. Runs with different numbers of threads and different limits give the same exchange cells, the same number
of times. -/
theorem C30_threads (maxx maxx' nb nb' : Nat) (s s' : List Nat) (hb : 0 < nb) (hb' : 0 < nb')
    (hf : Finishes g nb s) (hf' : Finishes g nb' s') {out out' : List (Option (Cell β))}
    (h : create2dx2d g maxx nb s = .ok out) (h' : create2dx2d g maxx' nb' s' = .ok out') : out.Perm out' := by
  obtain ⟨c, e, hm, hc⟩ := C30_cells g maxx nb s hb hf h
  obtain ⟨c', e', hm', hc'⟩ := C30_cells g maxx' nb' s' hb' hf' h'
  subst e e'
  apply List.Perm.map
  apply perm_of_filter (fun c : Cell β => (c.i2, c.j2))
  rintro ⟨i2, j2⟩
  simp only [Prod.mk.injEq]
  by_cases hi : i2 < g.nx2 ∧ j2 < g.ny2
  · rw [hc i2 j2 hi.1 hi.2, hc' i2 j2 hi.1 hi.2]
  · have hz : ∀ l : List (Cell β), (∀ c ∈ l, c.i2 < g.nx2 ∧ c.j2 < g.ny2) →
        l.filter (fun c => decide (c.i2 = i2 ∧ c.j2 = j2)) = [] := by
      intro l hl
      rw [List.filter_eq_nil_iff]
      intro a ha
      have := hl a ha
      simp only [decide_eq_true_eq]
      rintro ⟨rfl, rfl⟩
      exact hi this
    rw [hz c hm, hz c' hm']

theorem hitList_eq : hitList g = allCells g 1 := by
  simp only [hitList, allCells, blocks, blockLoop, List.flatMap_cons, List.flatMap_nil, List.append_nil, found, targets]
  rw [show g.nx2 * g.ny2 / (0 + 1) = g.nx2 * g.ny2 by simp, ← List.range_eq_range']

theorem hitList_length {nb : Nat} (hb : 0 < nb) : (allCells g nb).length = (hitList g).length := by
  rw [hitList_eq]
  apply List.Perm.length_eq
  apply perm_of_filter (fun c : Cell β => (c.i2, c.j2))
  rintro ⟨i2, j2⟩
  simp only [Prod.mk.injEq]
  by_cases hi : i2 < g.nx2 ∧ j2 < g.ny2
  · rw [allCells_filter g hb hi.1 hi.2, allCells_filter g Nat.one_pos hi.1 hi.2]
  · have hz : ∀ n, (allCells g n).filter (fun c => decide (c.i2 = i2 ∧ c.j2 = j2)) = [] := by
      intro n
      rw [List.filter_eq_nil_iff]
      intro a ha
      have := allCells_mem g ha
      simp only [decide_eq_true_eq]
      rintro ⟨rfl, rfl⟩
      exact hi this
    rw [hz, hz]

/-- C30. With one thread the result is the list of a plain loop, and the program stops with the error exactly if
the number of exchange cells reaches the limit. -/
theorem C30_one_thread (maxx : Nat) (sched : List Nat) (hf : Finishes g 1 sched) :
    create2dx2d g maxx 1 sched =
      if hitList g = [] ∨ (hitList g).length < maxx then .ok ((hitList g).map some) else .error .error := by
  have hs : (start g 1).todo 0 = hitList g := by
    have := start_flatMap g 1
    rw [← hitList_eq] at this
    simpa using this
  rcases create_eq g (maxx := maxx) hf with ⟨a, e⟩ | ⟨⟨m, hm, a, b⟩, e⟩
  · have := a 0 Nat.one_pos
    rw [hs, Nat.div_one] at this
    rw [e, if_pos this, hitList_eq]
  · obtain rfl : m = 0 := by omega
    rw [hs] at a b
    rw [Nat.div_one] at b
    rw [e, if_neg]
    rintro (h | h)
    · exact a h
    · omega

/-- C30. If the run succeeds with some number of threads, it succeeds with one. -/
theorem C30_fewer_threads (maxx nb : Nat) (s s1 : List Nat) (hb : 0 < nb) (hf : Finishes g nb s)
    (hf1 : Finishes g 1 s1) {out : List (Option (Cell β))} (h : create2dx2d g maxx nb s = .ok out) :
    ∃ out1, create2dx2d g maxx 1 s1 = .ok out1 ∧ out1.Perm out := by
  have hok : hitList g = [] ∨ (hitList g).length < maxx := by
    rcases create_eq g (maxx := maxx) hf with ⟨a, e⟩ | ⟨_, e⟩
    · by_cases hz : maxx / nb = 0
      · left
        apply List.length_eq_zero_iff.1
        rw [← hitList_length g hb, ← start_flatMap]
        have := flatMap_range_length (start g nb).todo 0 nb (by
          intro m hm
          rcases a m hm with h | h
          · simp [h]
          · omega)
        omega
      · right
        rw [← hitList_length g hb, ← start_flatMap]
        have := flatMap_range_length (start g nb).todo (maxx / nb - 1) nb (by
          intro m hm
          rcases a m hm with h | h
          · simp [h]
          · omega)
        have h3 : nb * (maxx / nb - 1) + nb = nb * (maxx / nb) := by
          rw [← Nat.mul_succ]; congr 1; exact Nat.succ_pred_eq_of_pos (Nat.pos_of_ne_zero hz)
        have h4 := Nat.mul_div_le maxx nb
        omega
    · rw [e] at h; cases h
  have e1 := C30_one_thread g maxx s1 hf1
  rw [if_pos hok] at e1
  exact ⟨_, e1, C30_threads g maxx maxx 1 nb s1 s Nat.one_pos hb hf1 hf e1 h⟩

section Remap
variable {K : Type} [Field K] [LinearOrder K] [IsStrictOrderedRing K] (g : Grids K)

/-- The exchange cell as the remapping reads it: one source tile, area. -/
def toX (c : Cell K) : XCell K := ⟨0, c.i1, c.j1, c.i2, c.j2, c.val, 0, 0⟩

theorem foldl_addAt_filter {α : Type} (key : α → Nat) (v : α → K) (n : Nat) : ∀ (l : List α) (a : Nat → K),
    l.foldl (fun a c => addAt a (key c) (v c)) a n =
      (l.filter (fun c => decide (key c = n))).foldl (fun x c => x + v c) (a n)
  | [], a => rfl
  | c :: l, a => by
    rw [List.foldl_cons, foldl_addAt_filter key v n l]
    by_cases h : key c = n
    · simp [h, addAt]
    · have h' : ¬ n = key c := fun e => h e.symm
      simp [h, h', addAt]

/-- C30. First order remapping of any data through the exchange grid gives the same value in every target cell,
operation by operation (also the order of the additions is the same), whatever the number of threads. -/
theorem C30_remap (maxx maxx' nb nb' nx1 : Nat) (s s' : List Nat) (hb : 0 < nb) (hb' : 0 < nb')
    (hf : Finishes g nb s) (hf' : Finishes g nb' s') (cells cells' : List (Cell K))
    (h : create2dx2d g maxx nb s = .ok (cells.map some)) (h' : create2dx2d g maxx' nb' s' = .ok (cells'.map some))
    (src : Nat → K) (i2 j2 : Nat) (hi : i2 < g.nx2) (hj : j2 < g.ny2) :
    conserveInterp nx1 g.nx2 (cells.map toX) src (j2 * g.nx2 + i2) =
      conserveInterp nx1 g.nx2 (cells'.map toX) src (j2 * g.nx2 + i2) := by
  have inj : Function.Injective (List.map (some : Cell K → Option (Cell K))) :=
    List.map_injective_iff.2 (Option.some_injective _)
  have key : ∀ c : Cell K, c.i2 < g.nx2 → (c.j2 * g.nx2 + c.i2 = j2 * g.nx2 + i2 ↔ c.i2 = i2 ∧ c.j2 = j2) := by
    intro c hc
    constructor
    · intro e
      have e1 : (c.j2 * g.nx2 + c.i2) % g.nx2 = (j2 * g.nx2 + i2) % g.nx2 := by rw [e]
      rw [Nat.mul_comm, Nat.mul_add_mod, Nat.mod_eq_of_lt hc, Nat.mul_comm, Nat.mul_add_mod, Nat.mod_eq_of_lt hi] at e1
      refine ⟨e1, ?_⟩
      rw [e1] at e
      exact Nat.eq_of_mul_eq_mul_right (by omega) (Nat.add_right_cancel e)
    · rintro ⟨rfl, rfl⟩; rfl
  have main : ∀ cs : List (Cell K), (∀ c ∈ cs, c.i2 < g.nx2 ∧ c.j2 < g.ny2) →
      (cs.map toX).filter (fun c : XCell K => decide (c.j2 * g.nx2 + c.i2 = j2 * g.nx2 + i2)) =
      (cs.filter (fun c => decide (c.i2 = i2 ∧ c.j2 = j2))).map toX := by
    intro cs hcs
    rw [List.filter_map]
    congr 1
    apply List.filter_congr
    intro c hc
    simp only [Function.comp, toX]
    exact decide_eq_decide.2 (key c (hcs c hc).1)
  obtain ⟨c1, e1, m1, f1⟩ := C30_cells g maxx nb s hb hf h
  obtain ⟨c2, e2, m2, f2⟩ := C30_cells g maxx' nb' s' hb' hf' h'
  obtain rfl := inj e1
  obtain rfl := inj e2
  have hda : dstArea g.nx2 (cells.map toX) (j2 * g.nx2 + i2) = dstArea g.nx2 (cells'.map toX) (j2 * g.nx2 + i2) := by
    simp only [dstArea]
    rw [foldl_addAt_filter (fun c : XCell K => c.j2 * g.nx2 + c.i2) (fun c : XCell K => c.area),
      foldl_addAt_filter (fun c : XCell K => c.j2 * g.nx2 + c.i2) (fun c : XCell K => c.area),
      main _ m1, main _ m2, f1 i2 j2 hi hj, f2 i2 j2 hi hj]
  have out : ∀ cs : List (Cell K), (∀ c ∈ cs, c.i2 < g.nx2 ∧ c.j2 < g.ny2) →
      conserveInterp nx1 g.nx2 (cs.map toX) src (j2 * g.nx2 + i2) =
      ((cs.filter (fun c => decide (c.i2 = i2 ∧ c.j2 = j2))).map toX).foldl (fun x c => x +
        src (c.j1 * nx1 + c.i1) * (c.area / dstArea g.nx2 (cs.map toX) (j2 * g.nx2 + i2))) 0 := by
    intro cs hcs
    simp only [conserveInterp]
    rw [foldl_addAt_filter (fun c : XCell K => c.j2 * g.nx2 + c.i2) (fun c : XCell K =>
      src (c.j1 * nx1 + c.i1) * (c.area / dstArea g.nx2 (cs.map toX) (c.j2 * g.nx2 + c.i2))), main _ hcs]
    rw [List.foldl_map, List.foldl_map]
    apply List.foldl_ext
    intro x c hc
    have := List.mem_filter.1 hc
    have e := (key c (hcs c this.1).1).2 (by simpa using this.2)
    simp only [toX]
    rw [e]
  rw [out _ m1, out _ m2, hda, f1 i2 j2 hi hj, f2 i2 j2 hi hj]

end Remap

/-- Two source cells over two target cells, everything overlaps. -/
def gAll : Grids Nat := ⟨2, 1, 2, 1, fun _ _ => true, fun i1 _ ij => some (10 * i1 + ij)⟩

/-- C30 as first stated fails: the order of the exchange cells depends on the number of threads. -/
theorem C30_order_wrong : ∃ out1 out2, Finishes gAll 1 (List.replicate 4 0) ∧
    Finishes gAll 2 (List.replicate 4 0 ++ List.replicate 4 1) ∧
    create2dx2d gAll 100 1 (List.replicate 4 0) = .ok out1 ∧
    create2dx2d gAll 100 2 (List.replicate 4 0 ++ List.replicate 4 1) = .ok out2 ∧ out1 ≠ out2 := by
  refine ⟨_, _, ?_, ?_, rfl, rfl, by decide⟩ <;> (unfold Finishes; decide)

/-- C30. Whether the limit is reached depends on the number of threads: 3 cells and room for 5 suffice for one
thread and not for two. -/
theorem C30_limit_wrong : ∃ (g : Grids Nat) (out : List (Option (Cell Nat))) (s1 s2 : List Nat),
    Finishes g 1 s1 ∧ Finishes g 2 s2 ∧
    create2dx2d g 5 1 s1 = .ok out ∧ create2dx2d g 5 2 s2 = .error .error := by
  refine ⟨⟨2, 1, 2, 1, fun _ _ => true, fun i1 _ ij => if i1 = 1 ∧ ij = 1 then none else some 7⟩, _,
    List.replicate 4 0, [0, 1, 0, 1, 0, 1, 0, 1], ?_, ?_, rfl, rfl⟩ <;> (unfold Finishes; decide)

/-- A case for `C30_schedule`, `C30_cells` and `C30_threads`: two threads taking turns find the four cells. -/
example : Finishes gAll 2 [0, 1, 0, 1, 0, 1, 0, 1] ∧ create2dx2d gAll 100 2 [0, 1, 0, 1, 0, 1, 0, 1] =
    .ok ([⟨0, 0, 0, 0, 0⟩, ⟨1, 0, 0, 0, 10⟩, ⟨0, 0, 1, 0, 1⟩, ⟨1, 0, 1, 0, 11⟩].map some) ∧
    cellsOf gAll 1 0 = [⟨0, 0, 1, 0, 1⟩, ⟨1, 0, 1, 0, 11⟩] := by
  refine ⟨?_, rfl, rfl⟩; unfold Finishes; decide

/-! ### C31 -/

/-- C31. The threaded routines never write outside their arrays: under any schedule, also one that ends in the
middle (the program stopped elsewhere), and for any limit and number of threads. -/
theorem C31_threads_inside (maxx nb : Nat) (sched : List Nat) : create2dx2d g maxx nb sched ≠ .error .oob :=
  create_not_oob g sched

/-- C31. If there are as many exchange cells as the limit or more, the threaded routines stop with the error. -/
theorem C31_threads_stop (maxx nb : Nat) (sched : List Nat) (hb : 0 < nb) (hf : Finishes g nb sched)
    (hne : hitList g ≠ []) (h : maxx ≤ (hitList g).length) : create2dx2d g maxx nb sched = .error .error := by
  cases e : create2dx2d g maxx nb sched with
  | ok out =>
    have hf1 : Finishes g 1 (List.replicate (g.nx1 * g.ny1 * (g.nx2 * g.ny2)) 0) := by
      intro m hm
      obtain rfl : m = 0 := by omega
      simp
    obtain ⟨o, h1, _⟩ := C30_fewer_threads g maxx nb sched _ hb hf hf1 e
    rw [C30_one_thread g maxx _ hf1, if_neg] at h1
    · cases h1
    · rintro (h2 | h2)
      · exact hne h2
      · omega
  | error s =>
    cases s with
    | error => rfl
    | oob => exact absurd e (create_not_oob g sched)

/-- C31. The routines without threads return all exchange cells if the arrays can hold them. Missing for the full
property: stopping with the error otherwise, which is false, see `C31_serial_wrong`. -/
theorem C31_serial_partial (maxx : Nat) (h : (hitList g).length ≤ maxx) : createSerial g maxx = .ok (hitList g) := by
  have : found g (0, g.nx2 * g.ny2) = hitList g := by
    rw [hitList_eq, allCells, blocks]; simp [blockLoop]
  rw [createSerial, this, enter_eq maxx _ [] (by simp), if_pos (by simpa using h)]
  rfl

/-- C31 fails for the routines without threads: with one exchange cell more than the limit they write outside the
arrays, always, because the limit is tested after writing. -/
theorem C31_serial_wrong (maxx : Nat) (h : maxx < (hitList g).length) : createSerial g maxx = .error .oob := by
  have : found g (0, g.nx2 * g.ny2) = hitList g := by
    rw [hitList_eq, allCells, blocks]; simp [blockLoop]
  rw [createSerial, this, enter_eq maxx _ [] (by simp), if_neg (by simp; omega)]

example : (hitList gAll).length = 4 ∧ createSerial gAll 4 = .ok (hitList gAll) ∧ createSerial gAll 3 = .error .oob ∧
    create2dx2d gAll 4 1 (List.replicate 4 0) = .error .error := by
  refine ⟨rfl, rfl, rfl, rfl⟩

/-- C31. The limit is what the user asked for if it is below 2^31. -/
theorem C31_limit (v : Nat) : getMaxxgrid v = (v : Int) ↔ v < 2147483648 := by
  rw [getMaxxgrid]
  split <;> omega

/-- C31. The option accepts values up to 1e10 for which the limit comes out negative or zero. -/
theorem C31_limit_wrong : (∃ v, acceptMaxxgrid v = true ∧ getMaxxgrid v < 0) ∧
    ∃ v, acceptMaxxgrid v = true ∧ getMaxxgrid v = 0 := by
  refine ⟨⟨3000000000, ?_, ?_⟩, ⟨4294967296, ?_, ?_⟩⟩ <;> simp [acceptMaxxgrid, getMaxxgrid]

end Verif.XGrid
