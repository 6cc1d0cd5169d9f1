import Verif.Model.RobotCycleDouble
import Verif.Spec.RobotCycle
import Verif.Spec.TransmissionDouble
import Verif.Lemmas.Double

/-!
Vocabulary for the control cycle of a robot that computes with doubles.
-/

namespace Verif.Cycle

open Verif.Transmission (Mem Constructed Trans Is IsNaN SameTrans MeansAll jointScale actuatorScale)
open Verif.Limits (Machine Flt Fl binary64)

variable {A : Machine binary64}

/-- The robot is put together as in the documentation, as `Wired`. -/
structure Wired64 (r : Robot64 A) : Prop where
  constructed : ∀ d ∈ r.drives, Constructed d.trans
  sized : ∀ d ∈ r.drives, d.Sized
  distinct : (r.drives.flatMap Drive.all).Nodup
  sorted : KeysSorted r.limits
  joints : ∀ e ∈ r.limits, ∃ d ∈ r.drives, ∃ i, d.Joint i e.2.joint
  once : ∀ e ∈ r.limits, ∀ e' ∈ r.limits, e.2.joint.cmd = e'.2.joint.cmd → e.1 = e'.1

/-- A period that the limits accept: a finite positive number. -/
def GoodPeriod (t : Flt A) : Prop := ∃ d : Fl binary64, t = Flt.fl d ∧ d.Fin ∧ 0 < d.1

/-- The reference of the position limits in the `k`-th cycle is the measured position and not a command: it is the first
cycle, the limits are reset in it, or the controllers have commanded NaN in the cycle before. -/
def Restarts (is : List (Input (Flt A))) (c k : Nat) : Prop :=
  k = 0 ∨ (∃ i, is[k]? = some i ∧ i.reset = true) ∨ ∃ k' i, k = k' + 1 ∧ is[k']? = some i ∧ IsNaN (i.wish c)

/-- The reference of the position limits in the `k`-th cycle: what the joint is measured at, or else what its command was
after the limits in the cycle before. -/
def Reference (is : List (Input (Flt A))) (recs : List (Record (Flt A))) (j : Limits.Joint) (k : Nat) (p : Fl binary64) : Prop :=
  (Restarts is j.cmd k → ∀ rec, recs[k]? = some rec → rec.measured j.pos = Flt.fl p) ∧
  (¬Restarts is j.cmd k → ∀ k' rec, k = k' + 1 → recs[k']? = some rec → rec.limited j.cmd = Flt.fl p)

/-- What the actuator commands that are sent amount to for the joints of a transmission: they are numbers, and the
transmission, applied to them without rounding, gives the joints the values `xs`. -/
def SentMeans (nd : Bool) (r : Robot64 A) (rec : Record (Flt A)) (d : Drive (Flt A)) (t : Trans ℚ) (xs : List ℚ) : Prop :=
  ∃ n m : Mem ℚ, (∀ c ∈ d.aCmd, Is (rec.sent c) (n c)) ∧
    Transmission.toJoint nd r.sends.quantity t (r.sends.data d.aCmd) (r.sends.data d.jCmd) n = .ok m ∧ d.jCmd.map m = xs

/-- The numbers differ by at most `ε` times the scale, one by one. -/
def CloseAll (ε : ℚ) : List ℚ → List ℚ → List ℚ → Prop
  | y :: ys, x :: xs, s :: ss => |y - x| ≤ ε * s ∧ CloseAll ε ys xs ss
  | [], [], [] => True
  | _, _, _ => False

/-- The actuator commands that are sent amount to a value for the joint with command variable `c` that lies between `lo`
and `hi`, up to 2^-49 of the terms that are added up on the way from the joints to the actuators and back. This is
for transmissions whose parameters, and for joint commands (after the limits) that are moderate numbers. -/
def SentWithin (nd : Bool) (r : Robot64 A) (rec : Record (Flt A)) (c : Nat) (lo hi : ℚ) : Prop :=
  ∀ d ∈ r.drives, ∀ (t : Trans ℚ) (xs : List ℚ) (k : Nat), SameTrans d.trans t → MeansAll (d.jCmd.map rec.limited) xs →
    d.jCmd[k]? = some c → ∃ ys y s, SentMeans nd r rec d t ys ∧ ys[k]? = some y ∧
      (jointScale r.sends.quantity t (actuatorScale r.sends.quantity t (xs.map abs)))[k]? = some s ∧
      lo - (2 ^ 49)⁻¹ * s ≤ y ∧ y ≤ hi + (2 ^ 49)⁻¹ * s

end Verif.Cycle
