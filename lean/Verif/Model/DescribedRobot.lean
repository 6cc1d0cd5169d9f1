import Verif.Model.RobotCycle
import Verif.Model.TransmissionLoader
import Verif.Model.LimitsConfig

/-!
A robot whose transmissions and joint limits both come from its description: the transmissions are loaded as in
transmission_interface_loader.h 244-325 (the documentation of the loader), the limit handles are made as in
joint_limits_interface/mainpage.dox 50-119, and the cycle is the one of joint_limits_interface/mainpage.dox 120-134.
The model does not fix what numbers are (`Setting`): the variables hold exact numbers as in `Verif.Model.RobotCycle`, and
if the enforcement were to leave a NaN, the cycle would halt; or they hold doubles as in
`Verif.Model.RobotCycleDouble` (`Verif.Model.DescribedRobotDouble`).
-/

namespace Verif.Described

open Verif.Transmission (Mem Loader Cmd StateCells setAt)
open Verif.Limits (Arith Dbl Cells JointLimits SoftLimits FullLimits UrdfJoint LimitsIface)
open Verif.Cycle (Halt Record overwrite)

/-- The robot: the data of the transmission loader, and for each kind of command a joint limits interface with
the class of its handles (joint_limits_interface/mainpage.dox 136-138). An interface without handles does
nothing, so a robot need not have limits for every kind of command. The variables hold values of `T`, and the limits
are computed with numbers of `K` and NaN. -/
structure Robot (T K : Type) where
  loader : Loader T
  kind : Cmd → Limits.Kind
  limits : Cmd → LimitsIface K

variable {T K : Type}

/-- What the numbers are: the arithmetic of the limits, the `double` of joint_limits_interface.h 80-90 that a limit
handle sees in a variable, and the value of a variable after a `double` has been stored in it (`none`: the variables
cannot hold it). In the code both are `double` (`Verif.Model.DescribedRobotDouble`); for exact numbers NaN is kept
apart from the variables. -/
structure Setting (T K : Type) extends Arith K where
  see : T → Dbl K
  store : Dbl K → Option T

/-- Exact numbers (`Arith.exact`): the variables hold numbers, and no variable holds a NaN, joint_limits_interface.h
80-90 as simplified in `Verif.Model.RobotCycle`. -/
@[reducible] def Setting.exact {K : Type} [Ring K] (huge : K) : Setting K K := ⟨.exact huge, some, id⟩

/-- joint_limits.h 36-51: `JointLimits limits;`, all members zero or false. -/
def noLimits (A : Arith K) : FullLimits (Dbl K) where
  minPosition := some A.zero
  maxPosition := some A.zero
  maxVelocity := some A.zero
  maxAcceleration := some A.zero
  maxEffort := some A.zero
  hasPosition := false
  hasVelocity := false
  hasAcceleration := false
  hasEffort := false
  maxJerk := some A.zero
  hasJerk := false
  angleWraparound := false

/-- joint_limits.h 53-59: `SoftJointLimits soft_limits;`, all members zero. -/
def noSoft (A : Arith K) : SoftLimits (Dbl K) := ⟨some A.zero, some A.zero, some A.zero, some A.zero⟩

section

variable (A : Arith K)

/-- joint_limits_interface/mainpage.dox 103-117 for one joint: its handle is taken from the command interface of
the robot (an exception if it has none), the limits and soft limits from the URDF (64-69, the results are not
used), and the limit handle is constructed (an exception if limits that are needed are missing) and registered.
`none`: an exception. -/
def addJoint (L : Loader T) (kind : Cmd → Limits.Kind) (c : Cmd) (n : String) (u : UrdfJoint (Dbl K))
    (s : Cmd → LimitsIface K) : Option (Cmd → LimitsIface K) :=
  -- the interface controllers get: the robot's own one, or else the loader's
  match smapFind n ((L.ownCommand c).getD (L.jointCommand c)) with
  | none => none
  | some (st, cell) =>
    let lim := (Limits.urdfLimits (some u) (noLimits A)).2
    let soft := (Limits.urdfSoftLimits (some u) (noSoft A)).2
    match Limits.mkLimiter A (kind c) ⟨n, st.position, st.velocity, cell⟩ lim.toJointLimits soft with
    | none => none
    | some h => some (setAt s c (Limits.registerLimiter h (s c)))

/-- The limits of the joints of a list, one after the other. -/
def addJoints (L : Loader T) (kind : Cmd → Limits.Kind) :
    List (Cmd × String × UrdfJoint (Dbl K)) → (Cmd → LimitsIface K) → Option (Cmd → LimitsIface K)
  | [], s => some s
  | (c, n, u) :: rest, s =>
    match addJoint A L kind c n u s with
    | none => none
    | some s => addJoints L kind rest s

/-- `init` of the robot when the transmissions have been loaded. -/
def init (L : Loader T) (kind : Cmd → Limits.Kind) (joints : List (Cmd × String × UrdfJoint (Dbl K))) : Option (Robot T K) :=
  (addJoints A L kind joints fun _ => []).map fun s => ⟨L, kind, s⟩

/-- The variables the hardware fills: the states of the actuators (joint_limits_interface/mainpage.dox 122). -/
def Robot.sensed (r : Robot T K) : List Nat :=
  (r.loader.actuators.state.getD []).flatMap fun e =>
    [e.2.position, e.2.velocity, e.2.effort] ++ e.2.absolutePosition.toList ++ e.2.torqueSensor.toList

/-- The variables the controllers fill: the commands of the joints, of which they get the handles by name
(resource_manager.h 113-124). -/
def Robot.commanded (r : Robot T K) : List Nat :=
  [Cmd.position, .velocity, .effort].flatMap fun c =>
    let l := (r.loader.ownCommand c).getD (r.loader.jointCommand c)
    (smapKeys l).filterMap fun n => (smapFind n l).map (·.2)

end

section

variable [Add T] [Sub T] [Mul T] [Div T] [OfNat T 2] [LinearOrder K] (A : Arith K) (S : Setting T K) (nd : Bool)

/-- joint_limits_interface/mainpage.dox 120-125: `read`. -/
def Robot.read (r : Robot T K) (sense m : Mem T) : Except Halt (Mem T) :=
  match Transmission.propagateAll nd .actuatorToJointState ((r.loader.handles .actuatorToJointState).map (·.2))
      (overwrite r.sensed sense m) with
  | .error f => .error (.transmission f)
  | .ok m => .ok m

/-- joint_limits_interface/mainpage.dox 129-131: `enforceLimits` of the limits interfaces, one after the other.
`none`: an assertion has failed. -/
def Robot.enforce (dt : Dbl K) : List Cmd → Robot T K → Cells K → Option (Robot T K × Cells K)
  | [], r, m => some (r, m)
  | c :: cs, r, m =>
    match Limits.enforceAll A (r.kind c) dt (r.limits c) m with
    | none => none
    | some (s, m) => Robot.enforce dt cs { r with limits := setAt r.limits c s } m

/-- joint_limits_interface/mainpage.dox 133: the commands are propagated to the actuators, one kind after the
other. -/
def Robot.send (r : Robot T K) : List Cmd → Mem T → Except Halt (Mem T)
  | [], m => .ok m
  | c :: cs, m =>
    match Transmission.propagateAll nd c.toActuator ((r.loader.handles c.toActuator).map (·.2)) m with
    | .error f => .error (.transmission f)
    | .ok m => Robot.send r cs m

/-- joint_limits_interface/mainpage.dox 127-136: `write`. The results are the robot (its limit handles keep the
commands), the variables after `enforceLimits`, and the variables in the end. -/
def Robot.write (r : Robot T K) (dt : T) (m : Mem T) : Except Halt (Robot T K × Mem T × Mem T) :=
  match r.enforce S.toArith (S.see dt) [.position, .velocity, .effort] fun a => S.see (m a) with
  | none => .error .limits
  | some (r, c) =>
    if [Cmd.position, .velocity, .effort].all fun q => (r.limits q).all fun e => (S.store (c e.2.joint.cmd)).isSome then
      let m' : Mem T := fun a => (S.store (c a)).getD (m a)
      match r.send nd [.position, .velocity, .effort] m' with
      | .error h => .error h
      | .ok m'' => .ok (r, m', m'')
    else .error .nan

/-- A cycle: `read`, the controllers write commands, possibly `reset` of the limits interfaces
(joint_limits_interface.h 571-577, 587-593), `write`. -/
def Robot.cycle (r : Robot T K) (i : Cycle.Input T) (m : Mem T) : Except Halt (Robot T K × Record T) := do
  let m1 ← r.read nd i.sense m
  let m2 := overwrite r.commanded i.wish m1
  let r := if i.reset then { r with limits := fun c => Limits.resetAll (r.kind c) (r.limits c) } else r
  let (r, m3, m4) ← r.write S nd i.period m2
  return (r, ⟨m1, m2, m3, m4⟩)

/-- The robot in operation: cycles until one halts. -/
def Robot.run : List (Cycle.Input T) → Robot T K → Mem T → List (Record T) × Option Halt
  | [], _, _ => ([], none)
  | i :: is, r, m =>
    match r.cycle S nd i m with
    | .error h => ([], some h)
    | .ok (r', rec) =>
      let (recs, h) := Robot.run is r' rec.sent
      (rec :: recs, h)

end

end Verif.Described
