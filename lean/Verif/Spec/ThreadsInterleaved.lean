import Verif.Model.ThreadsInterleaved
import Verif.Spec.Threads
import Verif.Spec.Interleaved

/-!
Vocabulary for executions of several threads in which updates are interrupted.
-/

namespace Verif.ThrInt

open Thr (ThrOp)

/-- What the threads that call the manager do in a step, as an operation of a history in which updates are not
interrupted. -/
def Step.op : Step → Option ThrOp
  | .call t srv c => some (.call t srv c)
  | .go t ok el => some (.go t ok el)
  | .rt _ => none

/-- What the threads that call the manager do, in order. -/
def threadOps (steps : List Step) : List ThrOp := steps.filterMap Step.op

/-- Not an update. -/
def _root_.Verif.Thr.ThrOp.ofThread : ThrOp → Bool
  | .update _ _ _ => false
  | _ => true

/-- Controllers are not reset: `update` is never called with `reset_controllers`. -/
def Step.noReset : Step → Prop
  | .rt u => u.reset = false
  | _ => True

/-- Some threads have done something, and the realtime thread is outside `update`. -/
def start (s : Thr.St) : St := { s := s }

/-- The threads are at the same places in the same calls, hold the same locks and have got the same answers, and the managers
agree. -/
structure Agree (s a : Thr.St) : Prop where
  pos : a.pos = s.pos
  services : a.services = s.services
  controllers : a.controllers = s.controllers
  answers : a.answers = s.answers
  generation : a.generation = s.generation
  made : a.made = s.made
  assertFailed : a.assertFailed = s.assertFailed
  mgr : s.mgr.Agrees a.mgr

/-- The conditions under which updates can be interrupted without anybody noticing: ROS is running, switches have no time limit, all
calls are made through the services (or libraries are not reloaded and controllers are switched through the service only),
and updates that are interrupted do not reset controllers. `pre` is what happened before. -/
structure Allowed (pre : List ThrOp) (steps : List Step) : Prop where
  ros : ∀ op ∈ pre ++ threadOps steps, op.rosUp
  patient : ∀ op ∈ pre ++ threadOps steps, op.noTimeout
  services : (∀ op ∈ pre ++ threadOps steps, op.service) ∨ ∀ op ∈ pre ++ threadOps steps, op.mild
  resets : ∀ o ∈ steps, o.noReset

/-- The calls that a thread makes in an execution, oldest first. -/
def calls (conf : List ControllerInfo → Bool) (t : Thr.Tid) : St → List Step → List Thr.Call
  | _, [] => []
  | x, o :: os => (o.op.bind (Thr.begins x.s t)).toList ++ calls conf t (x.step conf o) os

/-- The update in progress in `x` ends with the last of these steps. -/
def Ends (conf : List ControllerInfo → Bool) : St → List Step → Prop
  | _, [] => False
  | x, [o] => x.rt ≠ .idle ∧ (x.step conf o).rt = .idle
  | x, o :: os => x.rt ≠ .idle ∧ Ends conf (x.step conf o) os

end Verif.ThrInt
