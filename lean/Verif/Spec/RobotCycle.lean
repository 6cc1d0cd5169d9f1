import Verif.Model.RobotCycle
import Verif.Spec.LimitsInterface
import Verif.Spec.Transmission
import Verif.Lemmas.Containers

/-!
Vocabulary for the properties of the control cycle of a robot.
-/

namespace Verif.Cycle

open Verif.Transmission (Trans Mem Constructed Quantity)

variable {K : Type}

/-- All variables of a transmission's actuators and joints. -/
def Drive.all (d : Drive K) : List Nat :=
  d.aPos ++ d.aVel ++ d.aEff ++ d.aCmd ++ (d.jPos ++ d.jVel ++ d.jEff ++ d.jCmd)

/-- The lists have a variable for each actuator and each joint. -/
structure Drive.Sized (d : Drive K) : Prop where
  aPos : d.aPos.length = d.trans.numActuators
  aVel : d.aVel.length = d.trans.numActuators
  aEff : d.aEff.length = d.trans.numActuators
  aCmd : d.aCmd.length = d.trans.numActuators
  jPos : d.jPos.length = d.trans.numJoints
  jVel : d.jVel.length = d.trans.numJoints
  jEff : d.jEff.length = d.trans.numJoints
  jCmd : d.jCmd.length = d.trans.numJoints

/-- The joint is the `i`-th one of the transmission. -/
def Drive.Joint (d : Drive K) (i : Nat) (j : Limits.Joint) : Prop :=
  d.jPos[i]? = some j.pos ∧ d.jVel[i]? = some j.vel ∧ d.jCmd[i]? = some j.cmd

/-- The robot is put together as in the documentation: the transmissions are constructed, every quantity
has a variable of its own, and each limit handle is for a joint of a transmission, with at most one
handle for a joint. (Joints without limits are allowed.) -/
structure Wired [Field K] [DecidableEq K] (r : Robot K) : Prop where
  constructed : ∀ d ∈ r.drives, Constructed d.trans
  sized : ∀ d ∈ r.drives, d.Sized
  distinct : (r.drives.flatMap Drive.all).Nodup
  sorted : KeysSorted r.limits
  joints : ∀ e ∈ r.limits, ∃ d ∈ r.drives, ∃ i, d.Joint i e.2.joint
  once : ∀ e ∈ r.limits, ∀ e' ∈ r.limits, e.2.joint.cmd = e'.2.joint.cmd → e.1 = e'.1

/-- The quantity that is commanded. -/
def Command.quantity : Command → Quantity
  | .position => .position
  | .velocity => .velocity
  | .effort => .effort

/-- What the hardware reports for the positions is what the actuators were told: an ideal position
servo. `sent` are the variables at the end of the cycle before. -/
def Follows (r : Robot K) (sent sense : Mem K) : Prop :=
  ∀ d ∈ r.drives, ∀ i a b : Nat, d.aPos[i]? = some a → d.aCmd[i]? = some b → sense a = sent b

/-- What the actuator commands at the end of a cycle amount to for a joint: the transmission, applied to
the actuator commands as if they were what the actuators do, gives the joint with command variable `c`
the value `x`. -/
def Amounts [Field K] (nd : Bool) (r : Robot K) (rec : Record K) (c : Nat) (x : K) : Prop :=
  ∃ d ∈ r.drives, c ∈ d.jCmd ∧ ∃ m, Transmission.toJoint nd r.sends.quantity d.trans (r.sends.data d.aCmd)
    (r.sends.data d.jCmd) rec.sent = .ok m ∧ m c = x

/-- The position limits make sense, for the handle class and a period: the range is not empty, the
maximal velocity is not negative, and for soft limits there is a position range, the soft range does not
lie below it, and the gain is not negative and at most one over the period. -/
def SaneLimits [Field K] [LinearOrder K] (huge : K) (k : Limits.Kind) (L : Limits.JointLimits K)
    (S : Limits.SoftLimits K) (t : K) : Prop :=
  match k with
  | .posSat => (Limits.range (.exact huge) L).1 ≤ (Limits.range (.exact huge) L).2 ∧
      (L.hasVelocity = true → 0 ≤ L.maxVelocity)
  | .posSoft => L.hasPosition = true ∧ L.hasVelocity = true ∧ L.minPosition ≤ L.maxPosition ∧ 0 ≤ L.maxVelocity ∧
      L.minPosition ≤ S.maxPosition ∧ 0 ≤ S.kPosition ∧ S.kPosition * t ≤ 1
  | _ => False

end Verif.Cycle
