import Verif.Model.RobotHW
import Verif.Spec.Conflict
import Verif.Lemmas.Containers
import Mathlib.Data.List.Nodup
import Mathlib.Data.List.Count

/-!
Helper lemmas for the conflict check.
-/

namespace Verif

open Spec

namespace RobotHW

/-- Number of controllers recorded for resource `r`. -/
def sizeAt (m : List (String × List ControllerInfo)) (r : String) : Nat :=
  ((smapFind r m).getD []).length

theorem sizeAt_push (m : List (String × List ControllerInfo)) (r r' : String)
    (ci : ControllerInfo) :
    sizeAt (pushClaim m r ci) r' = sizeAt m r' + (if r = r' then 1 else 0) := by
  unfold sizeAt pushClaim
  rw [smapFind_insert]
  by_cases h : r' = r
  · subst h; simp
  · simp [h, Ne.symm h]

theorem foldl_resources (rs : List String) (ci : ControllerInfo)
    (m : List (String × List ControllerInfo)) (hm : KeysSorted m) :
    KeysSorted (rs.foldl (fun m r => pushClaim m r ci) m) ∧
    ∀ r, sizeAt (rs.foldl (fun m r => pushClaim m r ci) m) r = sizeAt m r + rs.count r := by
  induction rs generalizing m with
  | nil => simp [hm]
  | cons a rs ih =>
    obtain ⟨h1, h2⟩ := ih (pushClaim m a ci) (keysSorted_insert _ _ hm)
    refine ⟨h1, fun r => ?_⟩
    rw [List.foldl_cons, h2, sizeAt_push, List.count_cons]
    by_cases h : a = r <;> simp [h]; omega

theorem foldl_claims (cs : List InterfaceResources) (ci : ControllerInfo)
    (m : List (String × List ControllerInfo)) (hm : KeysSorted m) :
    KeysSorted (cs.foldl (fun m cr => cr.resources.foldl (fun m r => pushClaim m r ci) m) m) ∧
    ∀ r, sizeAt (cs.foldl (fun m cr => cr.resources.foldl (fun m r => pushClaim m r ci) m) m) r =
      sizeAt m r + (cs.flatMap (·.resources)).count r := by
  induction cs generalizing m with
  | nil => simp [hm]
  | cons a cs ih =>
    obtain ⟨h0, h0'⟩ := foldl_resources a.resources ci m hm
    obtain ⟨h1, h2⟩ := ih _ h0
    refine ⟨h1, fun r => ?_⟩
    rw [List.foldl_cons, h2, h0', List.flatMap_cons, List.count_append]
    omega

theorem foldl_infos (info : List ControllerInfo) (m : List (String × List ControllerInfo))
    (hm : KeysSorted m) :
    let m' := info.foldl (fun m ci =>
      ci.claimed.foldl (fun m cr => cr.resources.foldl (fun m r => pushClaim m r ci) m) m) m
    KeysSorted m' ∧ ∀ r, sizeAt m' r = sizeAt m r + (claimsOfAll info).count r := by
  induction info generalizing m with
  | nil => simp [hm, claimsOfAll]
  | cons a info ih =>
    obtain ⟨h0, h0'⟩ := foldl_claims a.claimed a m hm
    obtain ⟨h1, h2⟩ := ih _ h0
    refine ⟨h1, fun r => ?_⟩
    rw [List.foldl_cons, h2, h0']
    simp only [claimsOf, claimsOfAll, List.flatMap_cons, List.count_append]
    omega

theorem conflictMap_spec (info : List ControllerInfo) :
    KeysSorted (conflictMap info) ∧
    ∀ r, sizeAt (conflictMap info) r = (claimsOfAll info).count r := by
  have := foldl_infos info [] (by simp [KeysSorted, smapKeys])
  simpa [conflictMap, sizeAt, smapFind] using this

theorem foldl_flag (l : List (String × List ControllerInfo)) (b : Bool) :
    l.foldl (fun acc e => if e.2.length > 1 then true else acc) b = true ↔
      b = true ∨ ∃ e ∈ l, 1 < e.2.length := by
  induction l generalizing b with
  | nil => simp
  | cons a l ih =>
    rw [List.foldl_cons, ih]
    by_cases h : a.2.length > 1
    · simp [h]
    · simp [h]

theorem check_iff_count (info : List ControllerInfo) :
    checkForConflict info = true ↔ ∃ r, 1 < (claimsOfAll info).count r := by
  obtain ⟨hs, hc⟩ := conflictMap_spec info
  unfold checkForConflict
  rw [foldl_flag]
  constructor
  · rintro (h | ⟨e, he, hl⟩)
    · simp at h
    · refine ⟨e.1, ?_⟩
      rw [← hc, sizeAt, smapFind_of_mem hs (k := e.1) (v := e.2) he]
      simpa using hl
  · rintro ⟨r, hr⟩
    right
    rw [← hc, sizeAt] at hr
    cases hf : smapFind r (conflictMap info) with
    | none => simp [hf] at hr
    | some l => exact ⟨(r, l), mem_of_smapFind hf, by simpa [hf] using hr⟩

end RobotHW

end Verif
