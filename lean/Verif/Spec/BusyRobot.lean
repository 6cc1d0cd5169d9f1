import Verif.Model.BusyRobot
import Verif.Spec.WholeRobot
import Verif.Spec.Interleaved

/-!
Vocabulary for whole robots whose services are called in the middle of cycles.
-/

namespace Verif.Whole

open Verif.Transmission (Mem)
open Verif.Described (Robot Setting)

variable {T K : Type}

/-- The operation of the service thread cannot proceed now, as `Verif.Inter.Blocked`: a call waits for the lock, or the
wait loop of `switchController` goes round once more because its time limit is not reached. -/
def Stuck (m : Mgr) : SysOp → Prop
  | .poll _ elapsed => m.svc = .idle ∨
      ∃ k t, m.svc = .switching k t ∧ m.params.doSwitch = true ∧ (elapsed < t + Mgr.second ∨ t = 0)
  | _ => m.svc ≠ .idle

/-- The operation of the service thread does not interfere with an update in progress, as `Verif.Inter.Careful`. In the very
first update there are no operations. -/
def CarefulService (b : Busy T K) (op : SysOp) : Prop :=
  (b.rt ≠ .idle → b.sys.mgr.used ≠ none ∧ (b.sys.mgr.params.doSwitch = true → Stuck b.sys.mgr op)) ∧
    ((∃ u c l, b.rt = .restarting u c l) → Inter.waits b.sys.mgr ∨ Stuck b.sys.mgr op)

/-- Services are used properly and do not interfere with an update in progress, and controllers change only variables for
which they hold a handle that claims its resource. -/
def Fine (b : Busy T K) : Move T → Prop
  | .begin _ => True
  | .go => ∀ i start measured, b.stage = .inside i start measured →
      ∀ c k m a, ¬b.sys.CanWrite (fun d => [d]) c a → i.act c k m a = m a
  | .service op => op.Good ∧ CarefulService b op

/-- Time limits are generous and controllers are not restarted: `update` is not called with `reset_controllers`, and the wait
loop of `switchController` does not find its time limit exceeded. In the very first update there are no operations of the
service thread. -/
def Unhurried (b : Busy T K) : Move T → Prop
  | .begin i => i.restart = false
  | .go => ∀ i start measured, b.stage = .inside i start measured →
      ∀ c k m a, ¬b.sys.CanWrite (fun d => [d]) c a → i.act c k m a = m a
  | .service op => op.Good ∧ (b.rt ≠ .idle → b.sys.mgr.used ≠ none) ∧
      ∀ ok elapsed, op = .poll ok elapsed → ∀ k t, b.sys.mgr.svc = .switching k t → elapsed < t + Mgr.second ∨ t = 0

section

variable [Add T] [Sub T] [Mul T] [Div T] [OfNat T 2] [LinearOrder K] (S : Setting T K) (nd : Bool)

/-- All steps of a run have a property. -/
def AllMoves (P : Busy T K → Move T → Prop) : Busy T K → List (Move T) → Prop
  | _, [] => True
  | b, mv :: ms => P b mv ∧ ∀ b' p, b.step S nd mv = .ok (b', p) → AllMoves P b' ms

/-- The cycle that begins with a step. -/
def Stage.opens : Stage T → Move T → List (Input T)
  | .outside, .begin i => [i]
  | _, _ => []

/-- The cycles that have begun in a run, one after the other. -/
def begun : Busy T K → List (Move T) → List (Input T)
  | _, [] => []
  | b, mv :: ms =>
    b.stage.opens mv ++
    match b.step S nd mv with
    | .error _ => []
    | .ok (b', _) => begun b' ms

/-- The cycle in progress. -/
def Stage.now : Stage T → List (Input T)
  | .outside => []
  | .inside i _ _ => [i]

/-- All steps are fine, and the periods are positive, as seen by the limits. -/
structure Orderly (r : Robot T K) (m : Mem T) (ms : List (Move T)) : Prop where
  fine : AllMoves S nd Fine (Busy.start r m) ms
  positive : ∀ i, .begin i ∈ ms → Limits.dlt (some S.zero) (S.see i.period) = true

end

end Verif.Whole
