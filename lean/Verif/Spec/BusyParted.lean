import Verif.Model.BusyParted
import Verif.Spec.BusyRobot
import Verif.Spec.PartedRobot

/-!
Vocabulary for whole robots with a combined hardware whose services are called in the middle of cycles.
-/

namespace Verif.Parted

open Verif.Transmission (Mem)
open Verif.Described (Robot Setting Assembled)
open Verif.Whole (Input Stage Move Past Stuck)

variable {T K : Type}

/-- The operation of the service thread does not interfere with an update in progress, as `Verif.Inter.Careful`. In the very
first update there are no operations. -/
def CarefulService (b : Team T K) (op : SysOp) : Prop :=
  (b.rt ≠ .idle → b.sys.mgr.used ≠ none ∧ (b.sys.mgr.params.doSwitch = true → Stuck b.sys.mgr op)) ∧
    ((∃ u c l, b.rt = .restarting u c l) → Inter.waits b.sys.mgr ∨ Stuck b.sys.mgr op)

/-- Services are used properly and do not interfere with an update in progress, and controllers change only variables for
which they hold a handle that claims its resource. -/
def Fine (b : Team T K) : Move T → Prop
  | .begin _ => True
  | .go => ∀ i start measured, b.stage = .inside i start measured →
      ∀ c k m a, ¬b.sys.CanWrite (fun d => [d]) c a → i.act c k m a = m a
  | .service op => op.Good ∧ CarefulService b op

/-- Time limits are generous and controllers are not restarted, as `Verif.Whole.Unhurried`. -/
def Unhurried (b : Team T K) : Move T → Prop
  | .begin i => i.restart = false
  | .go => ∀ i start measured, b.stage = .inside i start measured →
      ∀ c k m a, ¬b.sys.CanWrite (fun d => [d]) c a → i.act c k m a = m a
  | .service op => op.Good ∧ (b.rt ≠ .idle → b.sys.mgr.used ≠ none) ∧
      ∀ ok elapsed, op = .poll ok elapsed → ∀ k t, b.sys.mgr.svc = .switching k t → elapsed < t + Mgr.second ∨ t = 0

/-- What part `k` of `n` parts sees of a completed cycle, as a hardware of its own. -/
def ownPast (n k : Nat) (x : Past T) : Cycle.Input T :=
  ⟨own n k x.input.sense, own n k x.record.wished, x.input.period, x.input.reset⟩

section

variable [Add T] [Sub T] [Mul T] [Div T] [OfNat T 0] [OfNat T 1] [OfNat T 2] [DecidableEq T] [LinearOrder K]

/-- All steps of a run have a property. -/
def AllMoves (S : Setting T K) (nd : Bool) (P : Team T K → Move T → Prop) : Team T K → List (Move T) → Prop
  | _, [] => True
  | b, mv :: ms => P b mv ∧ ∀ b' p, b.step S nd mv = .ok (b', p) → AllMoves S nd P b' ms

/-- The cycles that have begun in a run, one after the other. -/
def begun (S : Setting T K) (nd : Bool) : Team T K → List (Move T) → List (Input T)
  | _, [] => []
  | b, mv :: ms =>
    b.stage.opens mv ++
    match b.step S nd mv with
    | .error _ => []
    | .ok (b', _) => begun S nd b' ms

/-- All parts have been put together from their descriptions, all steps are fine, and the periods are positive, as seen by the
limits. -/
structure Orderly (stod : String → Option T) (S : Setting T K) (nd : Bool) (rs : List (Robot T K)) (m : Mem T) (ms : List (Move T)) :
    Prop where
  assembled : ∀ r ∈ rs, ∃ L0 d infos joints, Assembled stod S.toArith L0 d infos joints r
  fine : AllMoves S nd Fine (Team.start rs m) ms
  positive : ∀ i, .begin i ∈ ms → Limits.dlt (some S.zero) (S.see i.period) = true

end

end Verif.Parted
