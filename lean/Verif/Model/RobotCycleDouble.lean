import Verif.Model.RobotCycle
import Verif.Model.TransmissionDouble

/-!
The control cycle of RobotCycle.lean (transmission_interface/mainpage.dox 84-209, joint_limits_interface/mainpage.dox
94-139) on a machine that computes with doubles: the variables hold doubles, NaN and infinities included, the
transmissions compute as in TransmissionDouble.lean, and the joint limits as in Double.lean.
-/

namespace Verif.Cycle

open Verif.Transmission (Mem)
open Verif.Limits (Machine Flt Fl Arith binary64)

/-- The arithmetic of the joint limits, joint_limits_interface.h 53-517. -/
def limitsArith (A : Machine binary64) : Arith (Fl binary64) := .ieee A.toRounding (by decide)

/-- The robot: as `Robot`, with doubles. -/
structure Robot64 (A : Machine binary64) where
  sends : Command
  drives : List (Drive (Flt A))
  kind : Limits.Kind
  limits : Limits.LimitsIface (Fl binary64)

variable {A : Machine binary64} (nd : Bool)

/-- transmission_interface/mainpage.dox 161-168: `read`. -/
def Robot64.read (r : Robot64 A) (sense m : Mem (Flt A)) : Except Halt (Mem (Flt A)) :=
  match Transmission.propagateAll nd .actuatorToJointState (r.drives.map Drive.stateHandle)
      (overwrite (r.drives.flatMap Drive.sensed) sense m) with
  | .error f => .error (.transmission f)
  | .ok m => .ok m

/-- The controllers write commands. -/
def Robot64.control (r : Robot64 A) (wish m : Mem (Flt A)) : Mem (Flt A) :=
  overwrite (r.drives.flatMap Drive.jCmd) wish m

/-- joint_limits_interface/mainpage.dox 125-134: `write`. The results are the robot (its limit handles keep the
commands), the variables after `enforceLimits`, and the variables in the end. -/
def Robot64.write (r : Robot64 A) (dt : Flt A) (m : Mem (Flt A)) :
    Except Halt (Robot64 A × Mem (Flt A) × Mem (Flt A)) :=
  match Limits.enforceAll (limitsArith A) r.kind dt r.limits m with
  | none => .error .limits
  | some (s, c) =>
    match Transmission.propagateAll nd r.sends.kind (r.drives.map (Drive.commandHandle r.sends)) c with
    | .error f => .error (.transmission f)
    | .ok m' => .ok ({ r with limits := s }, c, m')

/-- A cycle: `read`, the controllers, possibly `reset` of the limits interface
(joint_limits_interface.h 571-577, 587-593), `write`. -/
def Robot64.cycle (r : Robot64 A) (i : Input (Flt A)) (m : Mem (Flt A)) :
    Except Halt (Robot64 A × Record (Flt A)) := do
  let m1 ← r.read nd i.sense m
  let m2 := r.control i.wish m1
  let r := if i.reset then { r with limits := Limits.resetAll r.kind r.limits } else r
  let (r, m3, m4) ← r.write nd i.period m2
  return (r, ⟨m1, m2, m3, m4⟩)

/-- The robot in operation: cycles until one halts. -/
def Robot64.run : List (Input (Flt A)) → Robot64 A → Mem (Flt A) → List (Record (Flt A)) × Option Halt
  | [], _, _ => ([], none)
  | i :: is, r, m =>
    match r.cycle nd i m with
    | .error h => ([], some h)
    | .ok (r', rec) =>
      let (recs, h) := Robot64.run is r' rec.sent
      (rec :: recs, h)

end Verif.Cycle
