import Verif.Spec.Manager
import Verif.Model.CombinedHW

/-!
Vocabulary for C100: what a robot hardware knows about the controllers.
-/

namespace Verif.Spec

open Mgr

/-- The controllers that are active in the eyes of a hardware which only sees the calls of its `doSwitch`: those
that were in a start list and in no later stop list. -/
def told (t : List Event) : List ControllerInfo :=
  t.foldl (fun l e => match e with
    | .doSwitch start stop => l.filter (fun i => i.name ∉ stop.map (·.name)) ++ start
    | _ => l) []

/-- What a sub-hardware of a combined hardware sees instead of an event of the manager: its `doSwitch` is called with
its part of the lists (combined_robot_hw.cpp 75-90). -/
def partOfEvent (hw : IMan) : Event → Event
  | .doSwitch start stop => .doSwitch (Combined.filterControllerList hw start) (Combined.filterControllerList hw stop)
  | e => e

/-- The operation happens in time: it is not the iteration of the wait loop in which a switch call gives up. -/
def InTime (m : Mgr) : Op → Prop
  | .poll _ elapsed => ∀ k timeout, m.svc = .switching k timeout → m.params.doSwitch = true →
      elapsed < timeout + second ∨ timeout = 0
  | _ => True

/-- In an update the hardware reports no error, and no timeout has elapsed. -/
def NoError (m : Mgr) : Op → Prop
  | .update time _ hw => hw.second ≠ .error ∧ (∀ n i, (hw.per n i).2 ≠ .error) ∧ timedOut m.params time = false
  | _ => True

/-- Every operation of the history has the property in the state in which it happens. -/
def Along (Q : Mgr → Op → Prop) (conf : List ControllerInfo → Bool) : Mgr → List Op → Prop
  | _, [] => True
  | m, op :: ops => Q m op ∧ Along Q conf (m.step conf op) ops

/-- C100 in full: after any history, the hardware regards exactly the running controllers as active if no switch is
in progress, and it never regards controllers as active that may not run together. -/
def HardwareFollows (conf : List ControllerInfo → Bool) : Prop :=
  ∀ m, Reachable conf m → (¬ m.Switching → (told m.trace).Perm (m.running.map (·.info))) ∧
    conf (told m.trace) = false

end Verif.Spec
