/-
Cases for C106 to C110.
-/
import Verif.Props.SplitVars
namespace Verif
open SplitVars Spec.SplitVars

/-- A file with air temperature in layers, with averages and bounds -/
def svHead : Head where
  unlimited := some "time"
  vars := [
    ⟨"delta", ["time", "lat"], []⟩,
    ⟨"time", ["time"], [("axis", ["T"]), ("bounds", ["time_bnds"])]⟩,
    ⟨"time_bnds", ["time", "nv"], []⟩,
    ⟨"lat", ["lat"], [("axis", ["Y"]), ("bounds", ["lat_bnds"])]⟩,
    ⟨"lat_bnds", ["lat", "nv"], []⟩,
    ⟨"lon", ["lon"], [("axis", ["X"])]⟩,
    ⟨"pfull", ["pfull"], [("axis", ["Z"]), ("formula_terms", ["ap:", "pk", "b:", "bk", "ps:", "ps"])]⟩,
    ⟨"pk", ["phalf"], []⟩,
    ⟨"ps", ["time", "lat", "lon"], []⟩,
    ⟨"average_T1", ["time"], []⟩,
    ⟨"ta", ["time", "pfull", "lat", "lon"], [("time_avg_info", ["average_T1"]), ("cell_measures", ["area:", "area"])]⟩,
    ⟨"ua", ["time", "pfull", "lat", "lon"], []⟩]

/-- A file of this kind; the records are numbers -/
def svInput (tile ext : String) (r : List Nat) : Input Nat := ⟨true, tile, ext, svHead, ["ta", "ua"], fun _ => r⟩

def svOpts : Opts := ⟨false, false, false, false, false, ["ta", "ua"], false⟩

def svStart : World Nat := ⟨fun _ => none, 0, false, []⟩

/-- What the run leaves in a file -/
def svAt (r : Except (World Nat) (List String × World Nat)) (k : Key) (x : String) : Option (List Nat) :=
  match r with
  | .error _ => none
  | .ok s => (s.2.out k).bind fun g => (g.get x).map (·.2)

def svNames (r : Except (World Nat) (List String × World Nat)) (k : Key) : Option (List String) :=
  match r with
  | .error _ => none
  | .ok s => (s.2.out k).map fun g => g.vars.map (·.1)

/-- The list of variables and the files removed at the end -/
def svEnd (r : Except (World Nat) (List String × World Nat)) : Option (List String × List Nat) :=
  match r with
  | .error _ => none
  | .ok s => some (s.1, s.2.removed)

theorem sv_fit (t : String) (r : List Nat) (n : String) (hn : n ∈ ["ta", "ua"]) : Fit (isCmip svOpts svHead n) (svInput t "" r) n := by
  have hfind : svHead.find n ≠ none ∧ ∃ v, svHead.find n = some v ∧ "time" ∈ v.dims := by
    simp only [List.mem_cons, List.not_mem_nil, or_false] at hn
    rcases hn with rfl | rfl
    · exact ⟨by decide, _, rfl, by decide⟩
    · exact ⟨by decide, _, rfl, by decide⟩
  refine ⟨rfl, rfl, ⟨"time", rfl, hfind.2⟩, ?_, ?_⟩
  · show ¬ TimeBounds svHead n
    rw [← timeVars_none svOpts svHead "time" n rfl]
    simp only [List.mem_cons, List.not_mem_nil, or_false] at hn
    rcases hn with rfl | rfl <;> decide
  · intro x hx
    have : ∃ m, timeVars svOpts svHead "time" n = some m ∧ ∀ x ∈ m, svHead.has x = true := by
      simp only [List.mem_cons, List.not_mem_nil, or_false] at hn
      rcases hn with rfl | rfl
      · exact ⟨["average_T1", "time_bnds"], by decide, by decide⟩
      · exact ⟨["time_bnds"], by decide, by decide⟩
    obtain ⟨m, hm, hall⟩ := this
    have hnb : ¬ TimeBounds svHead n := by
      rw [← timeVars_none svOpts svHead "time" n rfl, hm]
      simp
    obtain ⟨m', hm', hiff⟩ := timeVars_some svOpts svHead "time" n rfl hnb
    rw [hm] at hm'
    cases hm'
    exact hall x ((hiff x).2 hx)

/-- A case for C106 and C108: three files of two tiles -/
example : ∃ w', fileLoop svOpts (fun _ => true) [svInput ".tile1" "" [1, 2], svInput ".tile2" "" [3], svInput ".tile1" "" [4]] 0
    (["ta", "ua"], svStart) = .ok (["ta", "ua"], w') ∧ held w' "ta" ".tile1" "ta" = [1, 2, 4] := by
  obtain ⟨w', h1, _, _, _, h5⟩ := C106_records svOpts ⟨rfl, rfl, rfl⟩ (fun _ => true) (fun _ => rfl) ["ta", "ua"] (by decide) (by decide)
    [svInput ".tile1" "" [1, 2], svInput ".tile2" "" [3], svInput ".tile1" "" [4]] (by
      intro f hf n hn
      simp only [List.mem_cons, List.not_mem_nil, or_false] at hf
      rcases hf with rfl | rfl | rfl <;> exact sv_fit _ _ n hn) svStart
  refine ⟨w', h1, ?_⟩
  rw [h5 "ta" (by decide) "ta" (by
    intro f hf
    simp only [List.mem_cons, List.not_mem_nil, or_false] at hf
    rcases hf with rfl | rfl | rfl <;> exact ⟨.inl rfl, (sv_fit "" [] "ta" (by decide)).record⟩) ".tile1" (fun a ha => by cases ha)]
  rfl

/-- The variables in the output -/
example : svNames (fileLoop svOpts (fun _ => true) [svInput "" "" [1], svInput "" "" [2]] 0 (["ta", "ua"], svStart)) ⟨"ta", "", ""⟩ =
    some ["ta", "lat_bnds", "pk", "average_T1", "time_bnds"] := by decide +kernel

/-- **C106** Files with a number after `.nc` replace the earlier output, and the status is 0 -/
theorem C106_extension_wrong :
    let r := fileLoop svOpts (fun _ => true) [svInput "" ".0000" [1, 2], svInput "" ".0000" [3]] 0 (["ta", "ua"], svStart)
    exitOk r = true ∧ svAt r ⟨"ta", "", ".0000"⟩ "ta" = some [3] := by decide +kernel

/-- **C106** Records of tile 10 are added to those of tile 1 -/
theorem C106_tiles_mixed_wrong :
    let tile : String → String := fun s => String.ofList (tileOf s.toList)
    let r := fileLoop svOpts (fun _ => true) [svInput (tile "ocean.tile1.nc") "" [1, 2], svInput (tile "ocean.tile10.nc") "" [3]] 0
      (["ta", "ua"], svStart)
    exitOk r = true ∧ svAt r ⟨"ta", ".tile1", ""⟩ "ta" = some [1, 2, 3] := by decide +kernel

/-- A case for C107 -/
example : exitOk (fileLoop svOpts (fun _ => true) [svInput "" "" [1], svInput "" "" [2]] 0 (["ta", "ua"], svStart)) = true := by decide +kernel

/-- A case for `C107_loss_wrong`: the records of the first file are lost -/
example : svAt (fileLoop svOpts (fun i => i ≠ 3) [svInput "" "" [1], svInput "" "" [2]] 0 (["ta", "ua"], svStart)) ⟨"ta", "", ""⟩ "ta" = none ∧
    svAt (fileLoop svOpts (fun i => i ≠ 3) [svInput "" "" [1], svInput "" "" [2]] 0 (["ta", "ua"], svStart)) ⟨"ua", "", ""⟩ "ua" = some [1, 2] := by
  decide +kernel

/-- A case for `C107_later_wrong`: without a list of variables -/
example : svEnd (fileLoop svOpts (fun _ => true) [svInput "" "" [1]] 0 ([], svStart)) = some (["ta", "ua"], []) := by decide +kernel

/-- A case for `C108_onefile` and `C108_onefile_wrong` -/
example : oneFileList { svOpts with onefile := true } (fun _ => true) (svInput "" "" [1]) ["ta", "ua"] svStart =
      some ["ta", "lat_bnds", "pk", "average_T1", "time_bnds", "ua", "lat_bnds", "pk", "time_bnds"] ∧
    oneFileList { svOpts with onefile := true } (fun _ => true) (svInput "" "" [1]) ["ta", "ua", "time_bnds"] svStart = some [] := by
  decide +kernel

/-- A case for `C108_pressure` -/
example : psNeeded { svOpts with ps := true } svHead "ua" = true := by decide +kernel

/-- **C108** But the variable `ta` in the same file does not get the surface pressure, as the name `delta` ends like it -/
theorem C108_pressure_wrong : psNeeded { svOpts with ps := true } svHead "ta" = false ∧ axisDims svHead "ta" = ["time", "lat"] := by
  decide +kernel

/-- A case for C109 -/
example : cleaned id "lat" [("cartesian_axis", "Y"), ("units", "none"), ("calendar_type", "NOLEAP")] =
    [("units", "1"), ("axis", "Y"), ("calendar", ""), ("standard_name", "latitude")] := by decide +kernel

/-- A case for C110 -/
example : svEnd (fileLoop { svOpts with archive := true } (fun _ => true) [svInput "" "" [1], svInput "" "" [2]] 0 (["ta"], svStart)) =
    some (["ta"], [0, 1]) := by decide +kernel

end Verif
