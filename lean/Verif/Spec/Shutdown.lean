import Verif.Model.Shutdown
import Verif.Model.Interleaved
import Verif.Spec.Manager

/-!
Vocabulary for the shutdown of ROS.
-/

namespace Verif

/-- The operation is an update or a look of the call in progress: nobody makes a new call. -/
def Op.noCall : Op → Bool
  | .update _ _ _ => true
  | .poll _ _ => true
  | _ => false

/-- The operation is a look of the call in progress. -/
def Op.isLook : Op → Bool
  | .poll _ _ => true
  | _ => false

/-- A state that is reached when ROS shuts down: in `m` it begins to, at most one call notices it inside its loop, and
then these operations follow. -/
def ShutDown (conf : List ControllerInfo → Bool) (m : Mgr) (inLoop : Option Int) (ops : List Op) : Mgr :=
  ((inLoop.elim m m.noticeInLoop).downRun conf ops)

/-- C96 in full, the safety part: whatever happens while ROS shuts down, the realtime thread does not use a controller
that is gone, and a switch that is answered with true has been done. -/
def SafeShutdown (conf : List ControllerInfo → Bool) : Prop :=
  ∀ m, Reachable conf m → ∀ inLoop ops,
    (ShutDown conf m inLoop ops).fault = false ∧
    ∀ r now el, m.svc = .idle → (m.switch conf r now true).svc = .switching .ret r.timeout →
      .switchRet true ∈ ((m.switch conf r now true).downStep conf (.poll {} el)).trace.drop m.trace.length →
      ∃ a b, .doSwitch a b ∈ ((m.switch conf r now true).downStep conf (.poll {} el)).trace.drop m.trace.length

/-- The realtime thread is going through a list of controllers. -/
def Inter.InLoop : Inter.Rt → Bool
  | .resetting _ _ => true
  | .restarting _ _ _ => true
  | .updating _ _ => true
  | _ => false

end Verif
