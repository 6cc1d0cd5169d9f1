import Verif.Model.Exceptions
import Verif.Spec.Manager

/-!
Vocabulary for exceptions thrown by user code.
-/

namespace Verif

open Mgr

namespace Mgr

/-- ROS is not shutting down. -/
def XOp.rosUp : XOp → Prop
  | .op o => o.rosUp
  | _ => True

/-- If the operation is left by an exception, it is an update. -/
def XOp.inUpdates : XOp → Bool
  | .switchThrows _ _ => false
  | .reloadThrows _ => false
  | _ => true

/-- An update that is left by an exception does not restart controllers. -/
def XOp.noRestart : XOp → Bool
  | .updateThrows u _ => !u.reset
  | _ => true

end Mgr

/-- Reachable from a fresh manager by operations, any of which may be left by an exception of user code. -/
def XReachable (conf : List ControllerInfo → Bool) (m : Mgr) : Prop :=
  ∃ ops : List XOp, (∀ op ∈ ops, op.rosUp) ∧ m = Mgr.init.xrun conf ops

/-- Reachable with exceptions in updates only. -/
def UReachable (conf : List ControllerInfo → Bool) (m : Mgr) : Prop :=
  ∃ ops : List XOp, (∀ op ∈ ops, op.rosUp ∧ op.inUpdates = true) ∧ m = Mgr.init.xrun conf ops

/-- C97 in full, the safety part: whatever user code throws, no controller is used after it is gone. -/
def SafeWithExceptions (conf : List ControllerInfo → Bool) : Prop := ∀ m, XReachable conf m → m.fault = false

end Verif
