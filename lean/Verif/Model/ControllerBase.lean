/-!
Lifecycle of one controller object:
controller_interface/include/controller_interface/controller_base.h 48-256.

Each request is a function from the current `state_` to the new state, the boolean the
C++ method returns and the list of virtual callbacks it makes on the user's controller.
Simplification: the `ros::Time`/`ros::Duration` arguments handed through to the callbacks
are dropped, log output is dropped, and callbacks return normally (they do not throw).
-/

namespace Verif

/-- controller_base.h 243-251: `ControllerState`. -/
inductive CState
  | constructed
  | initialized
  | running
  | stopped
  | waiting
  | aborted
deriving DecidableEq, Repr

/-- The virtual functions of a controller that the realtime thread calls,
controller_base.h 66-94. -/
inductive Callback
  | starting
  | update
  | stopping
  | waiting
  | aborting
deriving DecidableEq, Repr

namespace CState

/-- controller_base.h 99-102. -/
def isInitialized (s : CState) : Bool := s = .initialized
/-- controller_base.h 107-110. -/
def isRunning (s : CState) : Bool := s = .running
/-- controller_base.h 115-118. -/
def isStopped (s : CState) : Bool := s = .stopped
/-- controller_base.h 123-126. -/
def isWaiting (s : CState) : Bool := s = .waiting
/-- controller_base.h 131-134. -/
def isAborted (s : CState) : Bool := s = .aborted

end CState

/-- What one request does: new `state_`, return value, callbacks made in order.
(`updateRequest` returns void in C++; its `ret` is `true` by convention.) -/
structure ReqOut where
  state : CState
  ret : Bool
  calls : List Callback
deriving DecidableEq, Repr

/-- controller_base.h 137-143. -/
def updateRequest (s : CState) : ReqOut :=
  if s = .running then ⟨s, true, [.update]⟩ else ⟨s, true, []⟩

/-- controller_base.h 146-160. -/
def startRequest (s : CState) : ReqOut :=
  if s ≠ .constructed then ⟨.running, true, [.starting]⟩ else ⟨s, false, []⟩

/-- controller_base.h 163-177. -/
def stopRequest (s : CState) : ReqOut :=
  if s ≠ .constructed then ⟨.stopped, true, [.stopping]⟩ else ⟨s, false, []⟩

/-- controller_base.h 180-194. -/
def waitRequest (s : CState) : ReqOut :=
  if s ≠ .constructed then ⟨.waiting, true, [.waiting]⟩ else ⟨s, false, []⟩

/-- controller_base.h 197-211. -/
def abortRequest (s : CState) : ReqOut :=
  if s ≠ .constructed then ⟨.aborted, true, [.aborting]⟩ else ⟨s, false, []⟩

/-- `initRequest` as seen by the lifecycle: controller.h 96-131 and
multi_interface_controller.h 245-282. `ok` is whether the hardware interfaces are present and
the user `init` functions return true (or throw, which counts as `false`: the exception
leaves the function before `state_` is assigned). The handling of claims is in
`Verif.Model.ControllerInit`. -/
def initRequest (ok : Bool) (s : CState) : ReqOut :=
  if s ≠ .constructed then ⟨s, false, []⟩
  else if ok then ⟨.initialized, true, []⟩
  else ⟨s, false, []⟩

/-- The requests that can be made on a controller. -/
inductive Request
  | init (ok : Bool)
  | update
  | start
  | stop
  | wait
  | abort
deriving DecidableEq, Repr

/-- Dispatch of a request, controller_base.h 137-239. -/
def Request.run : Request → CState → ReqOut
  | .init ok => initRequest ok
  | .update => updateRequest
  | .start => startRequest
  | .stop => stopRequest
  | .wait => waitRequest
  | .abort => abortRequest

/-- One controller with the record of what an observer saw: for every request its return
value and the callbacks it made, oldest first. Initially `CONSTRUCTED`
(controller_base.h 254). -/
structure Ctrl where
  state : CState := .constructed
  log : List (Request × Bool × List Callback) := []

/-- One request. -/
def Ctrl.step (c : Ctrl) (r : Request) : Ctrl :=
  let o := r.run c.state
  { state := o.state, log := c.log ++ [(r, o.ret, o.calls)] }

/-- A history of requests from a freshly constructed controller. -/
def Ctrl.run (rs : List Request) : Ctrl := rs.foldl Ctrl.step {}

/-- All callbacks seen so far, oldest first. -/
def Ctrl.callbacks (c : Ctrl) : List Callback := (c.log.map (fun e => e.2.2)).flatten

end Verif
