import Verif.Spec.Interleaved
import Verif.Examples.ManagerWorld

/-!
The conditions on executions can be evaluated; concrete executions with interleaved updates, used
in the examples beside the theorems. They model no code of their own.
-/

namespace Verif.Inter

instance (m : Mgr) (op : Op) : Decidable (Blocked m op) := by
  cases op with
  | poll ok el =>
    unfold Blocked
    cases h : m.svc with
    | switching k t =>
      exact decidable_of_iff (m.params.doSwitch = true ∧ (el < t + Mgr.second ∨ t = 0)) <| by
        constructor
        · rintro ⟨h1, h2⟩; exact Or.inr ⟨k, t, rfl, h1, h2⟩
        · rintro (h | ⟨k', t', e, h1, h2⟩)
          · cases h
          · cases e; exact ⟨h1, h2⟩
    | idle => exact isTrue (Or.inl rfl)
    | releasing f r => exact isFalse <| by rintro (h | ⟨_, _, e, _⟩) <;> contradiction
    | unloading l => exact isFalse <| by rintro (h | ⟨_, _, e, _⟩) <;> contradiction
  | load n e => exact inferInstanceAs (Decidable (m.svc ≠ .idle))
  | unload n => exact inferInstanceAs (Decidable (m.svc ≠ .idle))
  | switch r now p => exact inferInstanceAs (Decidable (m.svc ≠ .idle))
  | reload f now p => exact inferInstanceAs (Decidable (m.svc ≠ .idle))
  | update t r hw => exact inferInstanceAs (Decidable (m.svc ≠ .idle))

instance (m : Mgr) : Decidable (waits m) := by
  unfold waits Mgr.Switching Mgr.ReleasingList
  cases h : m.svc with
  | switching k t => exact isTrue (Or.inl ⟨k, t, rfl⟩)
  | releasing f r => exact isTrue (Or.inr ⟨f, r, rfl⟩)
  | idle => exact isFalse <| by rintro (⟨_, _, e⟩ | ⟨_, _, e⟩) <;> contradiction
  | unloading l => exact isFalse <| by rintro (⟨_, _, e⟩ | ⟨_, _, e⟩) <;> contradiction

instance (op : Op) : Decidable op.rosUp := by
  cases op with
  | poll ok el => exact inferInstanceAs (Decidable (_ ∧ _))
  | _ => exact isTrue trivial

instance (rt : Rt) : Decidable (rt = .idle) := by
  cases rt <;> first | exact isTrue rfl | exact isFalse (by simp)

instance (rt : Rt) : Decidable (∃ u c l, rt = .restarting u c l) := by
  cases rt with
  | restarting u c l => exact isTrue ⟨u, c, l, rfl⟩
  | _ => exact isFalse (by simp)

instance (s : St) (o : Step) : Decidable (Careful s o) := by
  cases o with
  | rt u => exact isTrue trivial
  | svc op => exact inferInstanceAs (Decidable (_ ∧ (_ → _ → _) ∧ (_ → _)))

instance decCareful (conf : List ControllerInfo → Bool) : (s : St) → (ops : List Step) →
    Decidable (CarefulRun conf s ops)
  | _, [] => isTrue trivial
  | s, o :: os =>
    have := decCareful conf (step conf s o) os
    inferInstanceAs (Decidable (Careful s o ∧ CarefulRun conf (step conf s o) os))

instance (s : St) (o : Step) : Decidable (Patient s o) := by
  cases o with
  | rt u => exact inferInstanceAs (Decidable (u.reset = false))
  | svc op =>
    unfold Patient
    cases op with
    | poll ok el =>
      cases h : s.m.svc with
      | switching k t =>
        exact decidable_of_iff ((Op.poll ok el).rosUp ∧ (el < t + Mgr.second ∨ t = 0)) <| by
          constructor
          · rintro ⟨h1, h2⟩; exact ⟨h1, fun _ _ e _ _ e' => by cases e; cases e'; exact h2⟩
          · rintro ⟨h1, h2⟩; exact ⟨h1, h2 ok el rfl k t rfl⟩
      | _ =>
        exact decidable_of_iff (Op.poll ok el).rosUp <| by
          constructor
          · intro h1; exact ⟨h1, fun _ _ _ _ _ e' => by cases e'⟩
          · rintro ⟨h1, _⟩; exact h1
    | _ => exact isTrue ⟨trivial, fun _ _ e => by cases e⟩

instance decPatient (conf : List ControllerInfo → Bool) : (s : St) → (ops : List Step) →
    Decidable (PatientRun conf s ops)
  | _, [] => isTrue trivial
  | s, o :: os =>
    have := decPatient conf (step conf s o) os
    inferInstanceAs (Decidable (Patient s o ∧ PatientRun conf (step conf s o) os))

instance decEnds (conf : List ControllerInfo → Bool) : (s : St) → (ops : List Step) →
    Decidable (Ends conf s ops)
  | _, [] => isFalse id
  | s, [o] => inferInstanceAs (Decidable (s.rt ≠ .idle ∧ (step conf s o).rt = .idle))
  | s, o :: o' :: os =>
    have := decEnds conf (step conf s o) (o' :: os)
    inferInstanceAs (Decidable (s.rt ≠ .idle ∧ Ends conf (step conf s o) (o' :: os)))

/-- A step of the realtime thread; the hardware reports that the switch is done. -/
def rt : Step := .rt { time := 0, reset := false, hw := Ex.hw .done }

/-- A step of the realtime thread that restarts the controllers if an update begins with it. -/
def rtReset : Step := .rt { time := 0, reset := true, hw := Ex.hw .done }

/-- "a" and "c" run, "b" needs the joint of "a". -/
def demo : Mgr := Ex.after Ex.running

/-- A strict switch from "a" to "b" is requested in the middle of an update, while "d" is being
loaded in the middle of the update before. -/
def busy : List Step :=
  [rt, .svc (.load "d" (Ex.env ["j3"])), rt, rt, .svc Ex.wait, rt, rt, .svc Ex.wait, rt, rt] ++
  [rt, .svc Ex.wait, rt, .svc Ex.wait, rt, rt, .svc (.switch ⟨["b"], ["a"], 2, false, 0⟩ 0 true), rt,
    .svc Ex.wait, rt, rt, rt, .svc Ex.wait, rt, rt, rt, rt, .svc Ex.wait, rt] ++
  [.svc Ex.wait, rt, rt, rt, rt, rt, rt, rt, rt]

end Verif.Inter
