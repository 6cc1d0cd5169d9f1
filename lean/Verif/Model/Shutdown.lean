import Verif.Model.Manager

/-!
The controller manager while ROS is shutting down, that is after `ros::ok()` has become false
(controller_manager/src/controller_manager.cpp 238-245, 352-359, 376-383, 419-426, 616-630).

`ros::ok()` never becomes true again. A loop `while (ros::ok() && ...)` then ends when its condition is looked at, and
the function goes on as if what it waited for had happened. Only a call whose loop was entered before, and
which looks at `ros::ok()` inside it, takes the `return false` there; this can be one call at most.

Granularity as in `Verif.Model.Manager`. Whoever still calls the manager (a thread that was waiting for its lock, or
the program itself) may do so.
-/

namespace Verif

namespace Mgr

/-- The loops in which `loadController` and `unloadController` wait until the free list is not in use (238, 376) end
at once, whatever list the realtime thread uses (plumbing). -/
def released (m : Mgr) : Mgr := { m with used := some m.current }

/-- controller_manager.cpp 618-621, 354-357, 421-424: the call in progress was in its loop when ROS began to shut down,
and notices it there. -/
def noticeInLoop (m : Mgr) (elapsed : Int) : Mgr := m.poll ⟨true, false⟩ elapsed

/-- One operation while ROS is shutting down: all loops end when their condition is looked at. -/
def downStep (conf : List ControllerInfo → Bool) (m : Mgr) : Op → Mgr
  | .update t r hw => m.update t r hw
  | .poll _ el => { m.released.poll ⟨false, false⟩ el with used := m.used }
  | op => { m.released.step conf op with used := m.used }

/-- A history of operations while ROS is shutting down. -/
def downRun (conf : List ControllerInfo → Bool) (m : Mgr) (ops : List Op) : Mgr := ops.foldl (downStep conf) m

end Mgr

end Verif
