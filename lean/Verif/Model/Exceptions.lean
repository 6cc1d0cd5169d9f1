import Verif.Model.Interleaved

/-!
Exceptions thrown by user code (controller callbacks and hardware functions) out of `update` and `switchController`
(controller_manager/src/controller_manager.cpp 66-90, 115-227, 436-610, 642-692;
controller_interface/include/controller_interface/controller_base.h 137-213).

The code catches no exception there. The function is left at once: a controller whose callback threw keeps the state
it had (the assignment to `state_` comes after the call), what was done before stays done, locks are released. Whoever calls
`update` catches the exception and goes on (otherwise the program ends); roscpp catches exceptions of service
callbacks and reports a failure to the client.

Simplifications: the update is cut as in `Verif.Model.Interleaved`, but not interleaved with service calls.
Exceptions during loading are caught by the code (`Verif.Model.Manager`).
-/

namespace Verif

namespace Inter

/-- The update called in `m` after `k` further steps; `none`: it has returned before. -/
def into (m : Mgr) (u : Args) : Nat → Option St
  | 0 => some (rtStep (start m) u)
  | k + 1 =>
    match into m u k with
    | none => none
    | some s =>
      match (rtStep s u).rt with
      | .idle => none
      | _ => some (rtStep s u)

/-- The next step of the realtime thread calls user code: a callback, `doSwitch` (controller_manager.cpp 120) or
`switchResult` (153, 163, 197, 202). -/
def callsUser (s : St) : Bool :=
  match s.rt with
  | .resetting _ (c :: _) => s.m.isRunning c.c
  | .restarting _ _ _ => true
  | .updating _ (c :: _) => s.m.isRunning c.c
  | .looking _ => s.m.params.doSwitch && !s.m.params.started
  | .stopping _ (c :: _) => s.m.isRunning c
  | .choosing _ => !s.m.params.asap
  | .starting _ (_ :: _) => true
  | .aborting _ (_ :: _) => true
  | .waiting _ (_ :: _) => true
  | .asap _ _ (c :: _) => !s.m.isRunning c
  | _ => false

/-- The user code called by the next step throws: the call is recorded, nothing else of the step is done. In 187-217 the
exception is one of the callback (one of `switchResult(info)` differs only in that there is no callback to record). -/
def thrown (s : St) (u : Args) : Mgr := { s.m with trace := (rtStep s u).m.trace }

end Inter

namespace Mgr

open Inter

/-- An update that is left by an exception of the user code called in step `k + 1`. If this is not possible, nothing
happens. -/
def updateThrows (m : Mgr) (u : Args) (k : Nat) : Mgr :=
  match into m u k with
  | none => m
  | some s => if callsUser s then thrown s u else m

/-- controller_manager.cpp 436-598: `switchController`, with `checkForConflict` (588) or `prepareSwitch` (597) throwing if they
are reached (recorded as a `prepareSwitch` answered with false). The requests stay in `start_request_` and
`stop_request_`. -/
def switchCoreThrows (conf : List ControllerInfo → Bool) (m : Mgr) (r : SwitchReq) (now : Int) (k : Kont) : Mgr :=
  match m.switchCore conf r now true k with
  | (false, m') => m'
  | (true, m') =>
    { m with params := {}, startReq := m'.startReq, stopReq := m'.stopReq, swStart := m'.swStart, swStop := m'.swStop,
             trace := m.trace ++ [.prepareSwitch m'.swStart m'.swStop false] }

/-- `switchController` called by a client. -/
def switchThrows (conf : List ControllerInfo → Bool) (m : Mgr) (r : SwitchReq) (now : Int) : Mgr :=
  if m.svc ≠ .idle then m else m.switchCoreThrows conf r now .ret

/-- controller_manager.cpp 642-668: `reloadControllerLibrariesSrv` with `force_kill`, whose switch is left by an exception. -/
def reloadThrows (conf : List ControllerInfo → Bool) (m : Mgr) (now : Int) : Mgr :=
  if m.svc ≠ .idle then m
  else if m.getControllerNames.isEmpty then m
  else m.switchCoreThrows conf ⟨[], m.getControllerNames, strictnessBestEffort, false, 0⟩ now (.reload m.getControllerNames)

/-- An operation, or one that is left by an exception. -/
inductive XOp
  | op (o : Op)
  | updateThrows (u : Args) (k : Nat)
  | switchThrows (r : SwitchReq) (now : Int)
  | reloadThrows (now : Int)

/-- One operation (dispatch). -/
def xstep (conf : List ControllerInfo → Bool) (m : Mgr) : XOp → Mgr
  | .op o => m.step conf o
  | .updateThrows u k => m.updateThrows u k
  | .switchThrows r now => m.switchThrows conf r now
  | .reloadThrows now => m.reloadThrows conf now

/-- A history. -/
def xrun (conf : List ControllerInfo → Bool) (m : Mgr) (ops : List XOp) : Mgr := ops.foldl (xstep conf) m

end Mgr

end Verif
