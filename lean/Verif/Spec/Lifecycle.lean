import Verif.Model.ControllerBase

/-!
Specification vocabulary for the controller lifecycle: what an observer may say about the
record of requests, replies and callbacks of one controller.
-/

namespace Verif.Spec

/-- The requests that move a controller between states once it is initialised. -/
def IsLifecycle : Request → Prop
  | .start | .stop | .wait | .abort => True
  | .init _ | .update => False

/-- An entry of the record that reports a successful initialisation. -/
def IsInitSuccess (e : Request × Bool × List Callback) : Prop :=
  ∃ ok, e.1 = .init ok ∧ e.2.1 = true

/-- The state a user expects after one recorded request: a successful request leads to the
state it names, anything else changes nothing. -/
def afterEntry (s : CState) : Request × Bool × List Callback → CState
  | (.init _, true, _) => .initialized
  | (.start, true, _) => .running
  | (.stop, true, _) => .stopped
  | (.wait, true, _) => .waiting
  | (.abort, true, _) => .aborted
  | _ => s

/-- The state a user expects from the whole record. -/
def expectedState (log : List (Request × Bool × List Callback)) : CState :=
  log.foldl afterEntry .constructed

end Verif.Spec
