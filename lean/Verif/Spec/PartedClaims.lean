import Verif.Spec.PartedRobot
import Verif.Spec.HardwareView
import Verif.Spec.CombinedHW

/-!
Vocabulary for C118: what the parts of a combined hardware know about the running controllers.
-/

namespace Verif.Parted

open Verif.Transmission (Loader Cmd)
open Verif.Described (Robot)
open Spec (told)

variable {T K : Type}

/-- Every operation of the history has the property in the state in which it happens. -/
def Throughout (Q : Sys → SysOp → Prop) : Sys → List SysOp → Prop
  | _, [] => True
  | s, op :: ops => Q s op ∧ Throughout Q (s.step stdEnv checkForConflict op) ops

/-- No switch call gives up waiting, the hardware reports no error, and no timeout elapses. -/
def Calm (s : Sys) : SysOp → Prop
  | .poll _ elapsed => ∀ k timeout, s.mgr.svc = .switching k timeout → s.mgr.params.doSwitch = true →
      elapsed < timeout + Mgr.second ∨ timeout = 0
  | .update time _ hw => hw.second ≠ .error ∧ (∀ n i, (hw.per n i).2 ≠ .error) ∧ Mgr.timedOut s.mgr.params time = false
  | _ => True

/-- The robot after a history of operations. -/
def after (rs : List (Robot T K)) (ops : List SysOp) : Sys :=
  (Sys.start (combined (rs.map (·.loader))) (interfaces (rs.map (·.loader)))).run stdEnv checkForConflict ops

/-- The call of `doSwitch` of part `k` that this is, if it is one. -/
def call (k : Nat) : Combined.Event → Option Event
  | .doSwitch i a b => if i = k then some (.doSwitch a b) else none
  | _ => none

/-- The calls of `doSwitch` that part `k` of the combined hardware receives when this happens in the manager: a call of `doSwitch` of
the combined hardware is followed by calls for its parts. -/
def received (hws : List IMan) (k : Nat) : Event → List Event
  | .doSwitch start stop => (Combined.doSwitch hws start stop).filterMap (call k)
  | _ => []

/-- Part `k`, which sees only the calls of its own `doSwitch`, regards a controller of that name as active with the command of the
joint. -/
def Regards (rs : List (Robot T K)) (s : Sys) (k : Nat) (name : String) (q : Cmd) (n : String) : Prop :=
  Combined.Mentions (told (s.mgr.trace.flatMap
    (received ((List.range rs.length).map (part (interfaces (rs.map (·.loader))))) k))) name (Whole.interfaceName q) n

/-- A running controller of that name holds a handle for the command of the joint of part `k`. -/
def Commands (rs : List (Robot T K)) (s : Sys) (k : Nat) (name : String) (q : Cmd) (n : String) : Prop :=
  ∃ sp ∈ s.mgr.cur, sp.info.name = name ∧ s.mgr.state sp.c = .running ∧ Holds rs s sp.c k q n

/-- C118 in full: each part regards exactly those controllers as active that run and hold commands of its joints, with these
joints. -/
def Informed (rs : List (Robot T K)) (s : Sys) : Prop :=
  ∀ k, k < rs.length → ∀ name q n, Regards rs s k name q n ↔ Commands rs s k name q n

end Verif.Parted
