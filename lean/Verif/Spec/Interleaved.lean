import Verif.Model.Interleaved
import Verif.Spec.Manager

/-!
Vocabulary for executions in which service operations happen in the middle of updates.
-/

namespace Verif

/-- The event is made by the realtime thread. -/
def Event.realtime : Event → Bool
  | .cb _ _ => true
  | .doSwitch _ _ => true
  | _ => false

/-- The event is an `update()` of a controller. -/
def Event.isUpdate : Event → Bool
  | .cb _ .update => true
  | _ => false

/-- What the realtime thread did to controllers and hardware besides the regular `update()`
calls, in order. -/
def transitions (t : List Event) : List Event := t.filter fun e => e.realtime && !e.isUpdate

/-- What the service thread did: answers to clients, destroyed controllers and so on, in order. -/
def answers (t : List Event) : List Event := t.filter fun e => !e.realtime

/-- Not an update. -/
def Op.isService : Op → Bool
  | .update .. => false
  | _ => true

/-- The two managers are in the same state, and the same transitions and answers have been seen,
each in the same order. Only the regular `update()` calls, and the way events of the two threads
are interleaved, may differ. -/
structure Mgr.Agrees (m a : Mgr) : Prop where
  cur : a.cur = m.cur
  oth : a.oth = m.oth
  current : a.current = m.current
  used : a.used = m.used
  state : a.state = m.state
  nextId : a.nextId = m.nextId
  startReq : a.startReq = m.startReq
  stopReq : a.stopReq = m.stopReq
  swStart : a.swStart = m.swStart
  swStop : a.swStop = m.swStop
  params : a.params = m.params
  svc : a.svc = m.svc
  fault : a.fault = m.fault
  transitions : transitions a.trace = transitions m.trace
  answers : answers a.trace = answers m.trace

namespace Inter

/-- The service thread is in a wait loop for the realtime thread. -/
def waits (m : Mgr) : Prop := m.Switching ∨ m.ReleasingList

/-- The operation of the service thread cannot proceed now: a call waits for the lock, or the
wait loop of `switchController` goes round once more because its time limit is not reached. -/
def Blocked (m : Mgr) : Op → Prop
  | .poll _ elapsed => m.svc = .idle ∨
      ∃ k t, m.svc = .switching k t ∧ m.params.doSwitch = true ∧ (elapsed < t + Mgr.second ∨ t = 0)
  | _ => m.svc ≠ .idle

/-- The step does not interfere with an update in progress. The service thread does not proceed
while an update finds a switch pending (as long as the wait loop of `switchController` has not
given up it cannot proceed then anyway). While a controller is between the `stopping` and the
`starting` of a restart, nothing but the wait loops proceeds. -/
def Careful (s : St) : Step → Prop
  | .rt _ => True
  | .svc op => op.rosUp ∧ (s.rt ≠ .idle → s.m.params.doSwitch = true → Blocked s.m op) ∧
      ((∃ u c l, s.rt = .restarting u c l) → waits s.m ∨ Blocked s.m op)

/-- All steps of the execution are careful. -/
def CarefulRun (conf : List ControllerInfo → Bool) : St → List Step → Prop
  | _, [] => True
  | s, o :: os => Careful s o ∧ CarefulRun conf (step conf s o) os

/-- Time limits are generous and controllers are not reset: `update` is never called with
`reset_controllers`, and the wait loop of `switchController` never finds its time limit
exceeded. -/
def Patient (s : St) : Step → Prop
  | .rt u => u.reset = false
  | .svc op => op.rosUp ∧ ∀ ok elapsed, op = .poll ok elapsed → ∀ k t, s.m.svc = .switching k t →
      elapsed < t + Mgr.second ∨ t = 0

/-- All steps of the execution are patient. -/
def PatientRun (conf : List ControllerInfo → Bool) : St → List Step → Prop
  | _, [] => True
  | s, o :: os => Patient s o ∧ PatientRun conf (step conf s o) os

/-- The `update()` calls among the events. -/
def updateCalls (t : List Event) : List Event := t.filter Event.isUpdate

/-- The update in progress in `s` ends with the last of these steps. -/
def Ends (conf : List ControllerInfo → Bool) : St → List Step → Prop
  | _, [] => False
  | s, [o] => s.rt ≠ .idle ∧ (step conf s o).rt = .idle
  | s, o :: os => s.rt ≠ .idle ∧ Ends conf (step conf s o) os

/-- The operations of the service thread. -/
def services : List Step → List Op
  | [] => []
  | .rt _ :: os => services os
  | .svc op :: os => if op.isService then op :: services os else services os

end Inter

end Verif
