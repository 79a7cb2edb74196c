import Verif.Lemmas.LandDomain
import Mathlib.Algebra.Order.Ring.Rat
import Mathlib.Algebra.Field.Rat
/-
C87: make_land_domain.

Full statement: for every mosaic the program succeeds if and only if no tile index is negative and the cells with land tiles
are exactly those with a positive exchange area, and then the file has exactly these cells with their numbers of tiles. The
`_partial` theorems need two to nine faces; `C87_one_face_wrong` and `C87_ten_faces_wrong` show that it is false otherwise.
-/
namespace Verif

open Verif.LandDomain Verif.Spec.LandDomain Verif.CString

/-- An exchange grid file of make_coupler_mosaic: the text before `X` (name of the atmosphere tile), the land face counted
from 0, and its records -/
structure LandFile (K : Type) where
  pre : List Char
  face : Nat
  records : List (Rec K)

/-- The name which make_coupler_mosaic gives this file (make_coupler_mosaic.c l.2175) -/
def LandFile.name {K : Type} (mosaic : List Char) (f : LandFile K) : List Char :=
  f.pre ++ 'X' :: (mosaic ++ "_tile".toList ++ digits (f.face + 1) ++ ".nc".toList)

/-- The input with these files -/
def landInput {K : Type} (nfaces nx ny : Nat) (mosaic : List Char) (files : List (LandFile K)) (restarts : Nat → List Int) :
    Input K :=
  { nfaces, nx, ny, mosaic, restarts, files := files.map fun f => (f.name mosaic, f.records) }

/-- Exchange area of cell `n` of a face -/
def faceArea {K : Type} [Field K] (nx : Nat) (files : List (LandFile K)) (face n : Nat) : K :=
  areaIn (fun r : Rec K => r.j2 * nx + r.i2) Rec.area ((files.filter fun f => f.face = face).flatMap LandFile.records) n

/-- Files which fit the grid: at most nine faces, names as make_coupler_mosaic forms them and in which the name of a land
face does not come up in the first part, and cells inside the faces -/
structure LandFits {K : Type} (nfaces nx ny : Nat) (mosaic : List Char) (files : List (LandFile K)) : Prop where
  faces : nfaces ≤ 9
  noX : 'X' ∉ mosaic
  pre : ∀ f ∈ files, ∀ face < nfaces, ¬faceName mosaic face <:+: f.pre
  face : ∀ f ∈ files, f.face < nfaces
  cell : ∀ f ∈ files, ∀ r ∈ f.records, r.j2 * nx + r.i2 < nx * ny

variable {K : Type} [Field K] [LinearOrder K] [IsStrictOrderedRing K]

theorem land_mask (sphere : K) (hs : 0 < sphere) (nfaces nx ny : Nat) (mosaic : List Char) (files : List (LandFile K))
    (restarts : Nat → List Int) (hf : LandFits nfaces nx ny mosaic files) (face : Nat) (hface : face < nfaces) :
    landMask sphere (landInput nfaces nx ny mosaic files restarts) face = .ok fun n => decide (0 < faceArea nx files face n) := by
  unfold landMask
  rw [landArea_ok sphere _ face _ rfl]
  · simp only [Except.map]
    congr 1
    funext n
    have : ((landInput nfaces nx ny mosaic files restarts).files.filter fun file =>
          strstr file.1 (faceName (landInput nfaces nx ny mosaic files restarts).mosaic face)).flatMap Prod.snd
        = (files.filter fun f => f.face = face).flatMap LandFile.records := by
      show ((files.map fun f => (f.name mosaic, f.records)).filter fun file => strstr file.1 (faceName mosaic face)).flatMap
        Prod.snd = _
      rw [List.filter_map, List.flatMap_map]
      congr 1
      apply List.filter_congr
      intro f hm
      exact name_match mosaic f.pre hf.noX face f.face (by have := hf.faces; omega)
        (by have := hf.faces; have := hf.face f hm; omega) (hf.pre f hm face hface)
    rw [this, decide_eq_decide]
    exact mul_pos_iff_of_pos_right hs
  · intro file hm r hr
    obtain ⟨f, hm', rfl⟩ := List.mem_map.1 hm
    exact hf.cell f hm' r hr

theorem land_run (sphere : K) (hs : 0 < sphere) (nfaces nx ny : Nat) (mosaic : List Char) (files : List (LandFile K))
    (restarts : Nat → List Int) (hf : LandFits nfaces nx ny mosaic files) (h1 : nfaces ≠ 1) (hn : 0 < nx * ny)
    (hidx : ∀ face < nfaces, ∀ idx ∈ restarts face, 0 ≤ idx) :
    run sphere (landInput nfaces nx ny mosaic files restarts) = (do
      (List.range nfaces).forM fun face => check (nx * ny) (fun n => decide (0 < faceArea nx files face n))
        fun n => tilesIn (nx * ny) (restarts face) n
      let packed := (List.range nfaces).flatMap fun face => packFace (nx * ny) (fun n => decide (0 < faceArea nx files face n))
        fun n => tilesIn (nx * ny) (restarts face) n
      return { nlandFace := (List.range nfaces).map fun face =>
                 (List.range (nx * ny)).countP fun n => decide (0 < faceArea nx files face n)
               gridIndex := packed.map Prod.fst
               gridNtile := packed.map Prod.snd }) := by
  have hm : (List.range nfaces).mapM (landMask sphere (landInput nfaces nx ny mosaic files restarts))
      = .ok ((List.range nfaces).map fun face n => decide (0 < faceArea nx files face n)) :=
    mapM_all_ok fun face hface => land_mask sphere hs nfaces nx ny mosaic files restarts hf face (List.mem_range.1 hface)
  have ht : (List.range nfaces).mapM (landNtile (landInput nfaces nx ny mosaic files restarts))
      = .ok ((List.range nfaces).map fun face n => tilesIn (nx * ny) (restarts face) n) :=
    mapM_all_ok fun face hface => by
      obtain ⟨T, h2, h3⟩ := landNtile_ok (landInput nfaces nx ny mosaic files restarts) face h1 hn
        (hidx face (List.mem_range.1 hface))
      rw [h2, funext h3]
      rfl
  unfold run
  rw [show (landInput nfaces nx ny mosaic files restarts).nfaces = nfaces from rfl, hm, ht]
  simp only [bind, Except.bind]
  rw [List.zip_map', List.map_map, List.flatMap_map]
  have : ∀ (l : List Nat) (g : Nat → (Nat → Bool) × (Nat → Nat)) (c : (Nat → Bool) × (Nat → Nat) → Except Err Unit),
      (l.map g).forM c = l.forM fun x => c (g x) := by
    intro l g c
    induction l with
    | nil => rfl
    | cons a l ih =>
      show (c (g a) >>= fun _ => (l.map g).forM c) = (c (g a) >>= fun _ => l.forM fun x => c (g x))
      rw [ih]
  rw [this]
  rfl

/-- C87: the program succeeds if and only if no tile index is negative and the cells with land tiles are exactly the cells
with a positive exchange area. -/
theorem C87_accepts_partial (sphere : K) (hs : 0 < sphere) (nfaces nx ny : Nat) (mosaic : List Char) (files : List (LandFile K))
    (restarts : Nat → List Int) (hf : LandFits nfaces nx ny mosaic files) (h1 : nfaces ≠ 1) (hn : 0 < nx * ny) :
    (∃ out, run sphere (landInput nfaces nx ny mosaic files restarts) = .ok out)
      ↔ (∀ face < nfaces, ∀ idx ∈ restarts face, 0 ≤ idx)
        ∧ ∀ face < nfaces, ∀ n < nx * ny, 0 < faceArea nx files face n ↔ 0 < tilesIn (nx * ny) (restarts face) n := by
  by_cases hidx : ∀ face < nfaces, ∀ idx ∈ restarts face, 0 ≤ idx
  · rw [land_run sphere hs nfaces nx ny mosaic files restarts hf h1 hn hidx]
    constructor
    · rintro ⟨out, h⟩
      refine ⟨hidx, fun face hface n hn' => ?_⟩
      cases hc : (List.range nfaces).forM fun face => check (nx * ny) (fun n => decide (0 < faceArea nx files face n))
          fun n => tilesIn (nx * ny) (restarts face) n with
      | error e => rw [hc] at h; cases h
      | ok u =>
        cases u
        have := (check_iff _ _ _).1 (forM_ok_iff.1 hc face (List.mem_range.2 hface)) n hn'
        simpa using this
    · rintro ⟨-, h⟩
      rw [show ((List.range nfaces).forM fun face => check (nx * ny) (fun n => decide (0 < faceArea nx files face n))
          fun n => tilesIn (nx * ny) (restarts face) n) = .ok () from
        forM_ok_iff.2 fun face hface => (check_iff _ _ _).2 fun n hn' => by
          simpa using h face (List.mem_range.1 hface) n hn']
      exact ⟨_, rfl⟩
  · constructor
    · rintro ⟨out, h⟩
      exfalso
      push Not at hidx
      obtain ⟨face, hface, hi⟩ := hidx
      obtain ⟨e, he⟩ := landNtile_negative (landInput nfaces nx ny mosaic files restarts) face hi
      obtain ⟨e', he'⟩ := mapM_some_error (l := List.range nfaces) (List.mem_range.2 hface) he
      have hm : (List.range nfaces).mapM (landMask sphere (landInput nfaces nx ny mosaic files restarts))
          = .ok ((List.range nfaces).map fun face n => decide (0 < faceArea nx files face n)) :=
        mapM_all_ok fun face hface => land_mask sphere hs nfaces nx ny mosaic files restarts hf face (List.mem_range.1 hface)
      unfold run at h
      rw [show (landInput nfaces nx ny mosaic files restarts).nfaces = nfaces from rfl, hm, he'] at h
      cases h
    · rintro ⟨h, -⟩
      exact absurd h hidx

theorem land_pack_length (npts : Nat) (mask : Nat → Bool) (ntile : Nat → Nat) :
    (packFace npts mask ntile).length = (List.range npts).countP mask := by
  unfold packFace
  induction List.range npts with
  | nil => rfl
  | cons a l ih => by_cases h : mask a = true <;> simp [List.filterMap_cons, List.countP_cons, h, ih]

theorem land_pack_eq (npts : Nat) (mask : Nat → Bool) (ntile : Nat → Nat) :
    packFace npts mask ntile = ((List.range npts).filter mask).map fun n => (n, ntile n) := by
  unfold packFace
  induction List.range npts with
  | nil => rfl
  | cons a l ih => by_cases h : mask a = true <;> simp [List.filterMap_cons, List.filter_cons, h, ih]

/-- The part of a concatenation that comes from one of its parts -/
theorem land_slice {α : Type} (g : Nat → List α) (nf f : Nat) (hf : f < nf) :
    (((List.range nf).flatMap g).drop (((List.range nf).map fun x => (g x).length).take f).sum).take (g f).length = g f := by
  have hsplit : List.range nf = List.range f ++ f :: (List.range' (f + 1) (nf - f - 1)) := by
    rw [List.range_eq_range', List.range_eq_range', ← List.range'_succ]
    rw [show nf - f - 1 + 1 = nf - f by omega]
    have := List.range'_append (s := 0) (m := f) (n := nf - f) (step := 1)
    rw [show f + (nf - f) = nf by omega] at this
    rw [← this]
    simp
  rw [hsplit]
  have hl : ((List.range f).flatMap g).length = ((List.range f).map fun x => (g x).length).sum := by
    rw [List.length_flatMap]
  have ht : ((List.range f).map fun x => (g x).length).take f = (List.range f).map fun x => (g x).length :=
    List.take_of_length_le (by simp)
  rw [List.map_append, List.take_append_of_le_length (by simp), ht, ← hl, List.flatMap_append,
    List.drop_left, List.flatMap_cons, List.take_left]

/-- C87: nothing is lost. The points of a face in the file are exactly the cells with a positive exchange area, in order, each
with its number of land tiles. -/
theorem C87_points_partial (sphere : K) (hs : 0 < sphere) (nfaces nx ny : Nat) (mosaic : List Char) (files : List (LandFile K))
    (restarts : Nat → List Int) (hf : LandFits nfaces nx ny mosaic files) (h1 : nfaces ≠ 1) (hn : 0 < nx * ny) (out : Output)
    (hout : run sphere (landInput nfaces nx ny mosaic files restarts) = .ok out) :
    out.nlandFace.length = nfaces
    ∧ out.gridIndex.length = out.nlandFace.sum ∧ out.gridNtile.length = out.nlandFace.sum
    ∧ ∀ face < nfaces, pointsOf out.nlandFace out.gridIndex out.gridNtile face
      = ((List.range (nx * ny)).filter fun n => decide (0 < faceArea nx files face n)).map
          fun n => (n, tilesIn (nx * ny) (restarts face) n) := by
  have hidx := ((C87_accepts_partial sphere hs nfaces nx ny mosaic files restarts hf h1 hn).1 ⟨out, hout⟩).1
  rw [land_run sphere hs nfaces nx ny mosaic files restarts hf h1 hn hidx] at hout
  cases hc : (List.range nfaces).forM fun face => check (nx * ny) (fun n => decide (0 < faceArea nx files face n))
      fun n => tilesIn (nx * ny) (restarts face) n with
  | error e => rw [hc] at hout; cases hout
  | ok u =>
    rw [hc] at hout
    simp only [bind, Except.bind, pure, Except.pure] at hout
    injection hout with hout
    subst hout
    dsimp only
    have hsum : ((List.range nfaces).flatMap fun face => packFace (nx * ny) (fun n => decide (0 < faceArea nx files face n))
          fun n => tilesIn (nx * ny) (restarts face) n).length
        = ((List.range nfaces).map fun face => (List.range (nx * ny)).countP fun n => decide (0 < faceArea nx files face n)).sum := by
      rw [List.length_flatMap]
      simp only [land_pack_length]
    refine ⟨by simp, by rw [List.length_map, hsum], by rw [List.length_map, hsum], fun face hface => ?_⟩
    rw [← land_pack_eq]
    unfold pointsOf
    rw [List.zip_map']
    simp only [Prod.mk.eta, List.map_id_fun', id]
    have hg : ((List.range nfaces).map fun face => (List.range (nx * ny)).countP fun n => decide (0 < faceArea nx files face n)).getD
        face 0 = (packFace (nx * ny) (fun n => decide (0 < faceArea nx files face n))
          fun n => tilesIn (nx * ny) (restarts face) n).length := by
      rw [land_pack_length]
      simp [List.getD, hface]
    rw [hg]
    have := land_slice (fun face => packFace (nx * ny) (fun n => decide (0 < faceArea nx files face n))
          fun n => tilesIn (nx * ny) (restarts face) n) nfaces face hface
    simp only [land_pack_length] at this ⊢
    exact this

/-- Two faces with two cells; the first face has land in its second cell, with two tiles, the second face in both. -/
example : (run (1 : ℚ) (landInput 2 2 1 "lnd".toList
      [⟨"atm_tile1".toList, 0, [⟨1, 0, 1 / 4⟩, ⟨1, 0, 1 / 8⟩]⟩, ⟨"atm_tile2".toList, 1, [⟨0, 0, 1⟩, ⟨1, 0, 1⟩]⟩]
      fun f => if f = 0 then [1, 3] else [0, 1, 5])).toOption
    = some { nlandFace := [1, 2], gridIndex := [1, 0, 1], gridNtile := [2, 1, 2] } := by
  decide +kernel

/-- These files fit. -/
example : LandFits (K := ℚ) 2 2 1 "lnd".toList
      [⟨"atm_tile1".toList, 0, [⟨1, 0, 1 / 4⟩, ⟨1, 0, 1 / 8⟩]⟩, ⟨"atm_tile2".toList, 1, [⟨0, 0, 1⟩, ⟨1, 0, 1⟩]⟩] where
  faces := by decide
  noX := by decide
  pre := by
    intro f hf face hface
    simp only [List.mem_cons, List.not_mem_nil, or_false] at hf
    rcases hf with rfl | rfl <;> interval_cases face <;> decide
  face := by simp
  cell := by simp

/-- C87, a defect: the program does not work for a mosaic with one tile (l.227 has the arguments of `strcpy` in wrong
order). -/
theorem C87_one_face_wrong (sphere : K) (inp : Input K) (h : inp.nfaces = 1) (out : Output) : run sphere inp ≠ .ok out := by
  intro hr
  have he : landNtile inp 0 = .error .undefined := by unfold landNtile; rw [if_pos h]
  unfold run at hr
  rw [h] at hr
  cases hm : (List.range 1).mapM (landMask sphere inp) with
  | error e => rw [hm] at hr; cases hr
  | ok m =>
    rw [hm] at hr
    rw [show (List.range 1).mapM (landNtile inp) = .error .undefined by
      simp [List.range_succ, he, bind, Except.bind]] at hr
    cases hr

/-- C87, a defect: with ten faces the first face takes the areas of the tenth, as its name is a part of the name of the
tenth (l.178). Here face 10 is land and has a tile, all other faces are sea and have none, and the program stops although
areas and tiles are consistent. -/
theorem C87_ten_faces_wrong :
    let files : List (LandFile ℚ) := [⟨"atm_tile1".toList, 9, [⟨0, 0, 1⟩]⟩]
    let restarts : Nat → List Int := fun f => if f = 9 then [0] else []
    (∀ face < 10, ∀ n < 1 * 1, 0 < faceArea 1 files face n ↔ 0 < tilesIn (1 * 1) (restarts face) n)
    ∧ ∀ out, run (1 : ℚ) (landInput 10 1 1 "lnd".toList files restarts) ≠ .ok out := by
  intro files restarts
  constructor
  · decide +kernel
  · intro out h
    have : (run (1 : ℚ) (landInput 10 1 1 "lnd".toList files restarts)).toOption = none := by decide +kernel
    rw [h] at this
    cases this

end Verif
