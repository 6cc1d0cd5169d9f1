import Verif.Model.DescribedRobot
import Verif.Spec.LoadedRobot
import Verif.Spec.RobotCycle

/-!
Vocabulary for robots whose transmissions and joint limits come from the description.
-/

namespace Verif.Described

open Verif.Transmission (Mem Loader Cmd Quantity Doc TransInfo parse loadTransmission)
open Verif.Limits (Arith Dbl UrdfJoint UrdfLimits UrdfSafety JointLimits SoftLimits)
open Verif.Cycle (Record)

variable {T K : Type}

/-- A quantity of a joint of the robot, by the name of the joint. -/
def Robot.jointValue (r : Robot T K) (q : Quantity) (n : String) (m : Mem T) : Option T :=
  (smapFind n r.loader.robotState).map fun s => m (s.get q)

/-- The command of a joint of the robot, by the name of the joint. -/
def Robot.jointCommand (r : Robot T K) (c : Cmd) (n : String) (m : Mem T) : Option T :=
  (r.loader.commandCell c n).map m

/-- The loader has loaded the transmissions `infos` of the description `d`; `L0` is the robot with its actuators
only. The hardware keeps the commands of its actuators apart, and the description names no transmission, joint or
actuator twice. -/
structure Base [OfNat T 0] [OfNat T 1] [DecidableEq T] (stod : String → Option T) (L0 : Loader T) (d : Doc)
    (infos : List TransInfo) (L : Loader T) : Prop where
  fresh : L0.Fresh
  noOwn : L0.NoOwn
  below : L0.ActuatorsBelow
  commandsApart : L0.CommandsApart
  kindsApart : ∀ c c' n n' a, c ≠ c' → L0.actuatorCell c n = some a → L0.actuatorCell c' n' ≠ some a
  loaded : L0.loadDoc stod d = .ok (L, true)
  parsed : parse d = .ok infos
  apart : Loader.JointsApart infos
  actuators : (infos.flatMap TransInfo.actuatorNames).Nodup

/-- The robot has been put together from its description and from the limits of the listed joints, among which no
joint appears twice for the same kind of command. -/
structure Assembled [OfNat T 0] [OfNat T 1] [DecidableEq T] (stod : String → Option T) (A : Arith K) (L0 : Loader T)
    (d : Doc) (infos : List TransInfo) (joints : List (Cmd × String × UrdfJoint (Dbl K))) (r : Robot T K) : Prop
    extends Base stod L0 d infos r.loader where
  made : init A r.loader r.kind joints = some r
  once : (joints.map fun j => (j.1, j.2.1)).Nodup

/-- What the actuator commands at the end of a cycle amount to for a joint: its transmission makes `x` of them. -/
def Sends [Field K] [DecidableEq K] (stod : String → Option K) (L0 : Loader K) (infos : List TransInfo) (c : Cmd)
    (rec : Record K) (n : String) (x : K) : Prop :=
  ∃ i ∈ infos, ∃ t v, ∃ q : Nat, loadTransmission stod i = .ok (some t) ∧
    L0.actuatorCommands c i.actuatorNames rec.sent = some v ∧ i.jointNames[q]? = some n ∧
    (t.jointsFrom c.quantity v)[q]? = some x

/-- The joint is moved by a transmission for whose actuators the robot takes commands of the kind, and the
description asks for them. -/
def Driven (L0 : Loader T) (infos : List TransInfo) (c : Cmd) (n : String) : Prop :=
  ∃ i ∈ infos, n ∈ i.jointNames ∧ i.Commanded c ∧ L0.HasCommands c i

/-- The joint has these limits in the URDF, and they are numbers. -/
def HasLimits (u : UrdfJoint (Dbl K)) (l : UrdfLimits K) : Prop :=
  u.limits = some ⟨some l.lower, some l.upper, some l.effort, some l.velocity⟩

/-- The joint has these soft limits in the URDF, and they are numbers. -/
def HasSoftLimits (u : UrdfJoint (Dbl K)) (s : UrdfSafety K) : Prop :=
  u.safety = some ⟨some s.softLower, some s.softUpper, some s.kPosition, some s.kVelocity⟩

/-- Only revolute and prismatic joints have a range. -/
def Ranged (u : UrdfJoint (Dbl K)) : Prop := u.type = .revolute ∨ u.type = .prismatic

/-- The positions the joint may have: its range, if it has one, and otherwise any double. -/
def Allowed [Field K] [LinearOrder K] (huge : K) (u : UrdfJoint (Dbl K)) (l : UrdfLimits K) (x : K) : Prop :=
  (Ranged u → l.lower ≤ x ∧ x ≤ l.upper) ∧ (¬Ranged u → -huge ≤ x ∧ x ≤ huge)

/-- The limits make sense for a class of position limit handles: the range is not empty, the maximal velocity is not
negative, and for soft limits there are a range and soft limits, the soft range does not lie below the range, and
the gain is not negative and at most one over the period. -/
def Sane [Field K] [LinearOrder K] (k : Limits.Kind) (u : UrdfJoint (Dbl K)) (l : UrdfLimits K) (t : K) : Prop :=
  0 ≤ l.velocity ∧ (Ranged u → l.lower ≤ l.upper) ∧
    match k with
    | .posSat => True
    | .posSoft => Ranged u ∧ ∃ s, HasSoftLimits u s ∧ l.lower ≤ s.softUpper ∧ 0 ≤ s.kPosition ∧ s.kPosition * t ≤ 1
    | _ => False

/-- The actuators of the joint's transmission reach the positions they have been told. -/
def Reaches (L0 : Loader T) (infos : List TransInfo) (n : String) (sent sense : Mem T) : Prop :=
  ∀ i ∈ infos, n ∈ i.jointNames →
    L0.actuatorValues .position i.actuatorNames sense = L0.actuatorCommands .position i.actuatorNames sent

end Verif.Described
