import Verif.Model.Threads
import Verif.Model.Interleaved

/-!
Several threads use the controller manager while the realtime thread is in the middle of an update:
controller_manager/src/controller_manager.cpp 66-90, 115-227 step by step as in `Verif.Model.Interleaved`, and the
functions that clients call (92-113, 229-692, 721-835) step by step as in `Verif.Model.Threads`. Between any two steps
of one thread the others may do any number of steps. Simplifications: those of the two models.
-/

namespace Verif.ThrInt

/-- The threads that call the manager (with the manager), and the position of the realtime thread in `update`
(controller_manager.cpp 66-227). -/
structure St where
  s : Thr.St := {}
  rt : Inter.Rt := .idle

/-- A thread makes a call, as a client of the services or directly; a thread makes a step; the realtime thread makes a step
(the arguments are used if a new update begins). -/
inductive Step
  | call (t : Thr.Tid) (srv : Bool) (c : Thr.Call)
  | go (t : Thr.Tid) (ok : Mgr.RosOk) (elapsed : Int)
  | rt (u : Inter.Args)

/-- One step of one of the threads: controller_manager.cpp 66-227 for the realtime thread, and 92-113, 229-692, 721-835
for the others. -/
def St.step (conf : List ControllerInfo → Bool) (x : St) : Step → St
  | .call t srv c => { x with s := x.s.call t srv c }
  | .go t ok el => { x with s := (x.s.go conf t ok el).getD x.s }
  | .rt u => ⟨{ x.s with mgr := (Inter.rtStep ⟨x.s.mgr, x.rt⟩ u).m }, (Inter.rtStep ⟨x.s.mgr, x.rt⟩ u).rt⟩

/-- An execution. -/
def St.run (conf : List ControllerInfo → Bool) (x : St) (steps : List Step) : St := steps.foldl (St.step conf) x

end Verif.ThrInt
