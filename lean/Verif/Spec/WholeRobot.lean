import Verif.Model.WholeRobot
import Verif.Spec.DescribedRobot
import Verif.Spec.System

/-!
Vocabulary for whole robots.
-/

namespace Verif.Whole

open Verif.Transmission (Mem Loader Cmd)
open Verif.Described (Robot)

variable {T K : Type}

/-- The service calls are no updates, ROS is up, and controllers use only the interfaces they are given. -/
def Op.Good : Op T → Prop
  | .service op => op.Good ∧ ∀ t r hw, op ≠ .update t r hw
  | .cycle _ => True

/-- The names under which controllers ask for the command interfaces of joints. -/
def interfaceName : Cmd → String
  | .position => "hardware_interface::PositionJointInterface"
  | .velocity => "hardware_interface::VelocityJointInterface"
  | .effort => "hardware_interface::EffortJointInterface"

/-- A controller holds a handle for commands of the kind of a joint. -/
def Holds (L : Loader T) (s : Sys) (c : CId) (q : Cmd) (n : String) : Prop :=
  ∃ g ∈ s.held c, g.exclusive = true ∧ g.handle.name = n ∧ L.commandCell q n = some g.handle.data

/-- What the manager is asked to do: what a service asks for, or an update with the given time and flag, for which the
hardware answers as it does. -/
def Op.manager : Op T → SysOp
  | .service op => op
  | .cycle i => .update i.time i.restart i.hw

/-- In every cycle the controllers change only variables for which they hold a handle that claims its resource. -/
def Honest : Sys → List (Op T) → Prop
  | _, [] => True
  | s, op :: ops => (∀ i, op = .cycle i → ∀ c k m a, ¬s.CanWrite (fun d => [d]) c a → i.act c k m a = m a) ∧
      Honest (s.step stdEnv checkForConflict op.manager) ops

/-- The cycles among some operations. -/
def cycles (ops : List (Op T)) : List (Input T) := ops.filterMap fun op => match op with
  | .service _ => none
  | .cycle i => some i

/-- Services are used properly, controllers write through their handles only, and the periods are positive. -/
structure Proper [Zero T] [LT T] (r : Robot T K) (m : Mem T) (ops : List (Op T)) : Prop where
  good : ∀ op ∈ ops, op.Good
  honest : Honest (World.start r m).sys ops
  positive : ∀ i, .cycle i ∈ ops → 0 < i.period

/-- The callbacks made in a cycle, in order. -/
def Seen.events (x : Seen T) : List Event := x.after.mgr.trace.drop x.before.mgr.trace.length

end Verif.Whole
