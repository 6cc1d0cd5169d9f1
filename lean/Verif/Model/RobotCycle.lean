import Verif.Model.LimitsInterface
import Verif.Model.Transmission

/-!
The control cycle of a robot that has joint limits and transmissions, as the documentation of the two
packages tells to write it: transmission_interface/mainpage.dox 84-209 (variables, handles, `read` and
`write`) and joint_limits_interface/mainpage.dox 94-139 (`enforceLimits` at the beginning of `write`).
Between `read` and `write` the controllers run (the control loop of
controller_manager_tests/src/dummy_app.cpp 46-53).

The limit handles are modelled with NaN, the transmissions without it. So the variables hold numbers
here, and if the enforcement were to leave a NaN, the cycle would halt (`Halt.nan`).
-/

namespace Verif.Cycle

open Verif.Transmission (Trans Handle Mem Data Fault)

/-- Which commands the actuators take: the interface is a `JointToActuatorPositionInterface`,
`JointToActuatorVelocityInterface` or `JointToActuatorEffortInterface`
(transmission_interface.h 431-438). -/
inductive Command
  | position | velocity | effort
  deriving DecidableEq, Repr

/-- A transmission with the variables of its actuators and its joints: measured position, velocity and
effort, and the command (transmission_interface/mainpage.dox 185-207). Variables are numbered. -/
structure Drive (F : Type) where
  trans : Trans F
  aPos : List Nat
  aVel : List Nat
  aEff : List Nat
  aCmd : List Nat
  jPos : List Nat
  jVel : List Nat
  jEff : List Nat
  jCmd : List Nat

/-- The handle registered in the `ActuatorToJointStateInterface`,
transmission_interface/mainpage.dox 106-113, 120-127, 137-145. -/
def Drive.stateHandle {F : Type} (d : Drive F) : Handle F where
  trans := d.trans
  act := { position := d.aPos.map some, velocity := d.aVel.map some, effort := d.aEff.map some }
  jnt := { position := d.jPos.map some, velocity := d.jVel.map some, effort := d.jEff.map some }

/-- Data with a single vector, "velocity and effort vectors are unused"
(transmission_interface/mainpage.dox 116-118). -/
def Command.data (q : Command) (l : List Nat) : Data :=
  match q with
  | .position => { position := l.map some }
  | .velocity => { velocity := l.map some }
  | .effort => { effort := l.map some }

/-- The handle registered in the interface for the commands, transmission_interface/mainpage.dox
115-118, 129-132, 147-155. -/
def Drive.commandHandle {F : Type} (q : Command) (d : Drive F) : Handle F where
  trans := d.trans
  act := q.data d.aCmd
  jnt := q.data d.jCmd

/-- The kind of the handles for the commands, transmission_interface.h 311-364. -/
def Command.kind : Command → Transmission.Kind
  | .position => .jointToActuatorPosition
  | .velocity => .jointToActuatorVelocity
  | .effort => .jointToActuatorEffort

/-- The robot: its transmissions in the order of their names, and its joint limits interface with the
class of the handles. -/
structure Robot (F : Type) where
  sends : Command
  drives : List (Drive F)
  kind : Limits.Kind
  limits : Limits.LimitsIface F

/-- Why a cycle is not completed: an assertion of a limit handle, a fault of a transmission, or (not
modelled further) a NaN among the commands. -/
inductive Halt
  | limits
  | transmission (f : Fault)
  | nan
  deriving DecidableEq, Repr

/-- What happens in a cycle: the values the hardware reports for the actuators, the commands the
controllers write for the joints, the period, and whether the limits interface is reset before `write`
(as after switching controllers). Only the values for variables of the actuators' states, respectively
of the joints' commands, are used. -/
structure Input (F : Type) where
  sense : Mem F
  wish : Mem F
  period : F
  reset : Bool

/-- The variables in the course of a cycle: after `read`, after the controllers have run, after the
limits have been enforced, and at the end of `write`, when the actuator commands are sent. -/
structure Record (F : Type) where
  measured : Mem F
  wished : Mem F
  limited : Mem F
  sent : Mem F

variable {K : Type}

/-- The variables of the list get new values (not in the code: what the environment does). -/
def overwrite (l : List Nat) (v m : Mem K) : Mem K := fun a => if a ∈ l then v a else m a

/-- The variables the hardware fills, transmission_interface/mainpage.dox 163-164. -/
def Drive.sensed (d : Drive K) : List Nat := d.aPos ++ d.aVel ++ d.aEff

section

variable [Field K] (nd : Bool)

/-- transmission_interface/mainpage.dox 161-168: `read`. -/
def Robot.read (r : Robot K) (sense m : Mem K) : Except Halt (Mem K) :=
  match Transmission.propagateAll nd .actuatorToJointState (r.drives.map Drive.stateHandle)
      (overwrite (r.drives.flatMap Drive.sensed) sense m) with
  | .error f => .error (.transmission f)
  | .ok m => .ok m

/-- The controllers write commands. -/
def Robot.control (r : Robot K) (wish m : Mem K) : Mem K := overwrite (r.drives.flatMap Drive.jCmd) wish m

variable [LinearOrder K] (A : Limits.Arith K)

/-- joint_limits_interface/mainpage.dox 125-134: `write`. The results are the robot (its limit handles
keep the commands), the variables after `enforceLimits`, and the variables in the end. -/
def Robot.write (r : Robot K) (dt : K) (m : Mem K) : Except Halt (Robot K × Mem K × Mem K) :=
  match Limits.enforceAll A r.kind (some dt) r.limits (fun a => some (m a)) with
  | none => .error .limits
  | some (s, c) =>
    if s.all fun e => (c e.2.joint.cmd).isSome then
      let m' : Mem K := fun a => (c a).getD (m a)
      match Transmission.propagateAll nd r.sends.kind (r.drives.map (Drive.commandHandle r.sends)) m' with
      | .error f => .error (.transmission f)
      | .ok m'' => .ok ({ r with limits := s }, m', m'')
    else .error .nan

/-- A cycle: `read`, the controllers, possibly `reset` of the limits interface
(joint_limits_interface.h 571-577, 587-593), `write`. -/
def Robot.cycle (r : Robot K) (i : Input K) (m : Mem K) : Except Halt (Robot K × Record K) := do
  let m1 ← r.read nd i.sense m
  let m2 := r.control i.wish m1
  let r := if i.reset then { r with limits := Limits.resetAll r.kind r.limits } else r
  let (r, m3, m4) ← r.write nd A i.period m2
  return (r, ⟨m1, m2, m3, m4⟩)

/-- The robot in operation: cycles until one halts. -/
def Robot.run : List (Input K) → Robot K → Mem K → List (Record K) × Option Halt
  | [], _, _ => ([], none)
  | i :: is, r, m =>
    match r.cycle nd A i m with
    | .error h => ([], some h)
    | .ok (r', rec) =>
      let (recs, h) := Robot.run is r' rec.sent
      (rec :: recs, h)

end

end Verif.Cycle
