import Verif.Model.DescribedRobotDouble
import Verif.Spec.DescribedRobot
import Verif.Spec.RobotCycleDouble

/-!
Vocabulary for robots whose transmissions and joint limits come from the description, and that compute with doubles.
-/

namespace Verif.Described

open Verif.Transmission (Mem Loader Cmd Quantity TransInfo Trans loadTransmission Is IsNaN MeansAll SameTrans jointScale
  actuatorScale)
open Verif.Limits (Machine Flt Fl UrdfJoint UrdfLimits binary64)
open Verif.Cycle (Record Input)

variable {A : Machine binary64}

/-- What the actuator commands at the end of a cycle amount to for a joint: they are numbers, and its transmission,
applied to them without rounding, makes `x` of them. This is for transmissions whose parameters are moderate numbers. -/
def Sends64 (stod : String → Option (Flt A)) (L0 : Loader (Flt A)) (infos : List TransInfo) (c : Cmd)
    (rec : Record (Flt A)) (n : String) (x : ℚ) : Prop :=
  ∃ i ∈ infos, ∃ (t : Trans (Flt A)) (t' : Trans ℚ) (v : List (Flt A)) (ys : List ℚ) (q : Nat),
    loadTransmission stod i = .ok (some t) ∧ SameTrans t t' ∧
    L0.actuatorCommands c i.actuatorNames rec.sent = some v ∧ List.Forall₂ Is v ys ∧ i.jointNames[q]? = some n ∧
    (t'.jointsFrom c.quantity ys)[q]? = some x

/-- How large the terms are that are added up on the way from the commands of the joints of a transmission to the
actuators and back to the joint: its parameters and the commands (after the limits) are moderate numbers. -/
def Terms (stod : String → Option (Flt A)) (infos : List TransInfo) (r : Robot (Flt A) (Fl binary64)) (c : Cmd)
    (rec : Record (Flt A)) (n : String) (s : ℚ) : Prop :=
  ∃ i ∈ infos, ∃ (t : Trans (Flt A)) (t' : Trans ℚ) (v : List (Flt A)) (xs : List ℚ) (q : Nat),
    loadTransmission stod i = .ok (some t) ∧ SameTrans t t' ∧
    r.loader.jointCommands c i.jointNames rec.limited = some v ∧ MeansAll v xs ∧ i.jointNames[q]? = some n ∧
    (jointScale c.quantity t' (actuatorScale c.quantity t' (xs.map abs)))[q]? = some s

/-- The actuator commands at the end of a cycle amount to a value for the joint that lies between `lo` and `hi`, up to
2^-49 of the terms that are added up on the way from the joints to the actuators and back. This is for transmissions
whose parameters, and for joint commands (after the limits) that are moderate numbers. -/
def SendsWithin64 (stod : String → Option (Flt A)) (L0 : Loader (Flt A)) (infos : List TransInfo)
    (r : Robot (Flt A) (Fl binary64)) (c : Cmd) (rec : Record (Flt A)) (n : String) (lo hi : ℚ) : Prop :=
  ∀ s, Terms stod infos r c rec n s → ∃ y, Sends64 stod L0 infos c rec n y ∧
    lo - (2 ^ 49)⁻¹ * s ≤ y ∧ y ≤ hi + (2 ^ 49)⁻¹ * s

/-- The position limits start from the measured position and not from a command in the `k`-th cycle: it is the first
cycle, the limits are reset in it, or the controllers have commanded NaN in the cycle before. -/
def StartsOver (r : Robot (Flt A) (Fl binary64)) (is : List (Input (Flt A))) (n : String) (k : Nat) : Prop :=
  k = 0 ∨ (∃ i, is[k]? = some i ∧ i.reset = true) ∨
    ∃ k' i x, k = k' + 1 ∧ is[k']? = some i ∧ r.jointCommand .position n i.wish = some x ∧ IsNaN x

/-- What the position limits start from in the `k`-th cycle: what the joint is measured at, or else what its command was
after the limits in the cycle before. -/
def Before (r : Robot (Flt A) (Fl binary64)) (is : List (Input (Flt A))) (recs : List (Record (Flt A))) (n : String)
    (k : Nat) (p : Fl binary64) : Prop :=
  (StartsOver r is n k → ∀ rec, recs[k]? = some rec → r.jointValue .position n rec.measured = some (Flt.fl p)) ∧
  (¬StartsOver r is n k → ∀ k' rec, k = k' + 1 → recs[k']? = some rec →
    r.jointCommand .position n rec.limited = some (Flt.fl p))

/-- The position is in the range of the joint, if it has one. -/
def InUrdfRange (u : UrdfJoint (Limits.Dbl (Fl binary64))) (l : UrdfLimits (Fl binary64)) (x : Fl binary64) : Prop :=
  Ranged u → l.lower.1 ≤ x.1 ∧ x.1 ≤ l.upper.1

end Verif.Described
