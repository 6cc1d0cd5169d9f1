import Verif.Lemmas.RobotHW
import Mathlib.Data.List.Flatten

/-!
Properties C27, C28: the default conflict check of `RobotHW`.
-/

namespace Verif

open Spec

/-- **C27, exactness.** The default `checkForConflict` reports a conflict iff some resource
is claimed more than once by the group. -/
theorem c27_conflict_iff (info : List ControllerInfo) :
    checkForConflict info = true ↔ ¬ ConflictFree info := by
  rw [RobotHW.check_iff_count, ConflictFree, List.nodup_iff_count_le_one]
  simp

/-- **C27, in words of the API.** A conflict is reported iff there are two different places
(controller position, interface position) claiming one resource, or one claim list naming a
resource twice (impossible for a `std::set`). -/
theorem c27_conflict_witness (info : List ControllerInfo) :
    checkForConflict info = true ↔ ∃ r, 2 ≤ (claimsOfAll info).count r :=
  RobotHW.check_iff_count info

/-- **C27, order does not matter.** Permuting the controllers does not change the answer. -/
theorem c27_order_independent (info info' : List ControllerInfo) (h : info.Perm info') :
    checkForConflict info = checkForConflict info' := by
  rw [Bool.eq_iff_iff, RobotHW.check_iff_count, RobotHW.check_iff_count]
  have hp : (claimsOfAll info).Perm (claimsOfAll info') := List.Perm.flatMap_right _ h
  simp only [hp.count_eq]

/-- **C27, interface order does not matter.** Permuting the interfaces inside the claims of
each controller does not change the answer. -/
theorem c27_interface_order_independent (info info' : List ControllerInfo)
    (h : List.Forall₂ (fun a b => a.claimed.Perm b.claimed) info info') :
    checkForConflict info = checkForConflict info' := by
  rw [Bool.eq_iff_iff, RobotHW.check_iff_count, RobotHW.check_iff_count]
  have hp : (claimsOfAll info).Perm (claimsOfAll info') := by
    induction h with
    | nil => exact List.Perm.refl _
    | cons hab _ ih =>
      simp only [claimsOfAll, List.flatMap_cons] at *
      exact (List.Perm.flatMap_right _ hab).append ih
  simp only [hp.count_eq]

/-- Two controllers on the same joint through different interfaces do conflict; a single
controller claiming the joint twice conflicts with itself; disjoint claims do not. -/
example :
    checkForConflict [⟨"a", "T", [⟨"Pos", ["j1", "j2"]⟩]⟩, ⟨"b", "T", [⟨"Eff", ["j2"]⟩]⟩] = true ∧
    checkForConflict [⟨"a", "T", [⟨"Pos", ["j1"]⟩, ⟨"Eff", ["j1"]⟩]⟩] = true ∧
    checkForConflict [⟨"a", "T", [⟨"Pos", ["j1"]⟩]⟩, ⟨"b", "T", [⟨"Pos", ["j2"]⟩]⟩] = false := by
  decide

/-- **C28, removing controllers.** A sub-group of a conflict-free group is conflict-free. -/
theorem c28_subgroup (info info' : List ControllerInfo) (hs : info'.Sublist info)
    (h : checkForConflict info = false) : checkForConflict info' = false := by
  have h1 : ConflictFree info := by
    by_contra hc; rw [(c27_conflict_iff info).2 hc] at h; cases h
  have h2 : ConflictFree info' := h1.sublist (hs.flatMap _)
  cases hc : checkForConflict info' with
  | false => rfl
  | true => exact absurd h2 ((c27_conflict_iff info').1 hc)

/-- **C28, removing claims.** If each controller keeps only part of its claims, no conflict
appears. -/
theorem c28_fewer_claims (info info' : List ControllerInfo)
    (hs : List.Forall₂ (fun a b => (claimsOf a).Sublist (claimsOf b)) info' info)
    (h : checkForConflict info = false) : checkForConflict info' = false := by
  have h1 : ConflictFree info := by
    by_contra hc; rw [(c27_conflict_iff info).2 hc] at h; cases h
  have hsub : (claimsOfAll info').Sublist (claimsOfAll info) := by
    clear h h1
    induction hs with
    | nil => exact List.Sublist.refl _
    | cons hab _ ih => simpa [claimsOfAll] using hab.append ih
  have h2 : ConflictFree info' := h1.sublist hsub
  cases hc : checkForConflict info' with
  | false => rfl
  | true => exact absurd h2 ((c27_conflict_iff info').1 hc)

/-- **C28, adding a controller.** It creates a conflict iff it claims one resource twice
itself or claims a resource some controller of the group already claims. -/
theorem c28_add_controller (ci : ControllerInfo) (info : List ControllerInfo)
    (h : checkForConflict info = false) :
    checkForConflict (ci :: info) = true ↔
      (∃ r, 2 ≤ (claimsOf ci).count r) ∨ ∃ r ∈ claimsOf ci, ∃ cj ∈ info, r ∈ claimsOf cj := by
  have hmem : ∀ r, r ∈ claimsOfAll info ↔ ∃ cj ∈ info, r ∈ claimsOf cj := by
    intro r; simp [claimsOfAll]
  have hle : ∀ r, (claimsOfAll info).count r ≤ 1 := by
    intro r; by_contra hc
    rw [(RobotHW.check_iff_count info).2 ⟨r, by omega⟩] at h; cases h
  rw [RobotHW.check_iff_count]
  constructor
  · rintro ⟨r, hr⟩
    rw [claimsOfAll, List.flatMap_cons, List.count_append] at hr
    have := hle r
    rw [claimsOfAll] at this
    by_cases h2 : 2 ≤ (claimsOf ci).count r
    · exact Or.inl ⟨r, h2⟩
    · right
      refine ⟨r, List.count_pos_iff.1 (by omega), (hmem r).1 (List.count_pos_iff.1 ?_)⟩
      rw [claimsOfAll]; omega
  · rintro (⟨r, hr⟩ | ⟨r, hr, hj⟩)
    · refine ⟨r, ?_⟩
      rw [claimsOfAll, List.flatMap_cons, List.count_append]; omega
    · refine ⟨r, ?_⟩
      have h1 := List.count_pos_iff.2 hr
      have h2 := List.count_pos_iff.2 ((hmem r).2 hj)
      rw [claimsOfAll] at h2
      rw [claimsOfAll, List.flatMap_cons, List.count_append]; omega

example : checkForConflict [⟨"a", "T", [⟨"Pos", ["j1"]⟩]⟩, ⟨"b", "T", [⟨"Pos", ["j2"]⟩]⟩] = false ∧
    checkForConflict [⟨"c", "T", [⟨"Vel", ["j0", "j2"]⟩]⟩, ⟨"a", "T", [⟨"Pos", ["j1"]⟩]⟩,
      ⟨"b", "T", [⟨"Pos", ["j2"]⟩]⟩] = true := by decide

end Verif
