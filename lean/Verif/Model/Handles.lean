/-!
Handles to joints and actuators, in hardware_interface/include/hardware_interface:
joint_state_interface.h, actuator_state_interface.h, joint_command_interface.h,
actuator_command_interface.h, posvel_command_interface.h, posvelacc_command_interface.h,
position_velocity_torque_gains_command_interface.h, joint_mode_interface.h.

A pointer is null (`none`) or the address of a variable that exists as long as the handle. Copying a
handle copies its pointers. Values are of an arbitrary type `V` (`double`, or the joint modes).
The messages of exceptions are left out.
-/

namespace Verif.Handles

/-- A pointer; `none` is `nullptr`. -/
abbrev Ptr := Option Nat

/-- The variables pointed to. -/
abbrev Mem (V : Type) := Nat → V

/-- The outcome of an access: a result, a failed assertion (with assertions off: a null pointer is
dereferenced), or a thrown exception. -/
inductive Access (α : Type)
  | ok (a : α)
  | assertion
  | exception
  deriving DecidableEq, Repr

/-- `assert(p); return *p;`, for example joint_state_interface.h 167. -/
def read {V : Type} (p : Ptr) (m : Mem V) : Access V :=
  match p with
  | none => .assertion
  | some a => .ok (m a)

/-- `assert(p); *p = v;`, for example joint_command_interface.h 60. -/
def write {V : Type} (p : Ptr) (v : V) (m : Mem V) : Access (Mem V) :=
  match p with
  | none => .assertion
  | some a => .ok fun b => if b = a then v else m b

/-- Statements one after the other (plumbing). -/
def Access.andThen {α β : Type} (x : Access α) (f : α → Access β) : Access β :=
  match x with
  | .ok a => f a
  | .assertion => .assertion
  | .exception => .exception

/-! ### State -/

/-- `JointStateHandle` and `ActuatorStateHandle` (the same text, with other exception messages):
joint_state_interface.h 215-220 and actuator_state_interface.h 216-221. The default values are those
of the default constructor (48 in both). -/
structure StateHandle where
  name : String := ""
  pos : Ptr := none
  vel : Ptr := none
  eff : Ptr := none
  absPos : Ptr := none
  torque : Ptr := none
  deriving DecidableEq, Repr

/-- joint_state_interface.h 56-71 and actuator_state_interface.h 56-71. -/
def mkState (name : String) (pos vel eff : Ptr) : Option StateHandle :=
  if pos.isNone then none
  else if vel.isNone then none
  else if eff.isNone then none
  else some { name, pos, vel, eff }

/-- joint_state_interface.h 81-105 and actuator_state_interface.h 81-106. -/
def mkStateBoth (name : String) (pos vel eff absPos torque : Ptr) : Option StateHandle :=
  if pos.isNone then none
  else if vel.isNone then none
  else if eff.isNone then none
  else if absPos.isNone then none
  else if torque.isNone then none
  else some { name, pos, vel, eff, absPos, torque }

/-- joint_state_interface.h 114-134 and actuator_state_interface.h 115-135. -/
def mkStateAbs (name : String) (pos vel eff absPos : Ptr) : Option StateHandle :=
  if pos.isNone then none
  else if vel.isNone then none
  else if eff.isNone then none
  else if absPos.isNone then none
  else some { name, pos, vel, eff, absPos }

/-- joint_state_interface.h 144-164 and actuator_state_interface.h 145-165. -/
def mkStateTorque (name : String) (pos vel eff torque : Ptr) : Option StateHandle :=
  if pos.isNone then none
  else if vel.isNone then none
  else if eff.isNone then none
  else if torque.isNone then none
  else some { name, pos, vel, eff, torque }

namespace StateHandle

variable {V : Type}

/-- joint_state_interface.h 167 and actuator_state_interface.h 168. -/
def getPosition (h : StateHandle) (m : Mem V) : Access V := read h.pos m

/-- joint_state_interface.h 168 and actuator_state_interface.h 169. -/
def getVelocity (h : StateHandle) (m : Mem V) : Access V := read h.vel m

/-- joint_state_interface.h 169 and actuator_state_interface.h 170. -/
def getEffort (h : StateHandle) (m : Mem V) : Access V := read h.eff m

/-- joint_state_interface.h 211 and actuator_state_interface.h 212. -/
def hasAbsolutePosition (h : StateHandle) : Bool := h.absPos.isSome

/-- joint_state_interface.h 212 and actuator_state_interface.h 213. -/
def hasTorqueSensor (h : StateHandle) : Bool := h.torque.isSome

/-- joint_state_interface.h 171-178 and actuator_state_interface.h 172-179. After the check the
pointer is dereferenced without assertion; a null pointer there counts as a failed assertion. -/
def getAbsolutePosition (h : StateHandle) (m : Mem V) : Access V :=
  if !h.hasAbsolutePosition then .exception else read h.absPos m

/-- joint_state_interface.h 180-187 and actuator_state_interface.h 181-188. -/
def getTorqueSensor (h : StateHandle) (m : Mem V) : Access V :=
  if !h.hasTorqueSensor then .exception else read h.torque m

end StateHandle

/-! ### Commands -/

/-- `JointHandle` and `ActuatorHandle`: joint_command_interface.h 42-66, actuator_command_interface.h
40-65. -/
structure CommandHandle extends StateHandle where
  cmd : Ptr := none
  deriving DecidableEq, Repr

/-- joint_command_interface.h 51-58, actuator_command_interface.h 49-56. -/
def mkCommand (s : StateHandle) (cmd : Ptr) : Option CommandHandle :=
  if cmd.isNone then none else some { s with cmd }

/-- `PosVelJointHandle`: posvel_command_interface.h 42-80. -/
structure PosVelHandle extends StateHandle where
  cmdPos : Ptr := none
  cmdVel : Ptr := none
  deriving DecidableEq, Repr

/-- posvel_command_interface.h 52-63. -/
def mkPosVel (s : StateHandle) (cmdPos cmdVel : Ptr) : Option PosVelHandle :=
  if cmdPos.isNone then none
  else if cmdVel.isNone then none
  else some { s with cmdPos, cmdVel }

/-- `PosVelAccJointHandle`: posvelacc_command_interface.h 42-74. -/
structure PosVelAccHandle extends PosVelHandle where
  cmdAcc : Ptr := none
  deriving DecidableEq, Repr

/-- posvelacc_command_interface.h 53-60; the constructor of the base class may throw first. -/
def mkPosVelAcc (s : StateHandle) (cmdPos cmdVel cmdAcc : Ptr) : Option PosVelAccHandle :=
  match mkPosVel s cmdPos cmdVel with
  | none => none
  | some b => if cmdAcc.isNone then none else some { b with cmdAcc }

/-- `PositionVelocityTorqueGainsJointHandle`: position_velocity_torque_gains_command_interface.h
42-96. -/
structure GainsHandle extends PosVelHandle where
  cmdEff : Ptr := none
  cmdKp : Ptr := none
  cmdKd : Ptr := none
  deriving DecidableEq, Repr

/-- position_velocity_torque_gains_command_interface.h 55-72. -/
def mkGains (s : StateHandle) (cmdPos cmdVel cmdEff cmdKp cmdKd : Ptr) : Option GainsHandle :=
  match mkPosVel s cmdPos cmdVel with
  | none => none
  | some b =>
    if cmdEff.isNone then none
    else if cmdKp.isNone then none
    else if cmdKd.isNone then none
    else some { b with cmdEff, cmdKp, cmdKd }

/-- `JointModeHandle`: joint_mode_interface.h 62-112. -/
structure ModeHandle where
  name : String := ""
  mode : Ptr := none
  deriving DecidableEq, Repr

/-- joint_mode_interface.h 68-76. -/
def mkMode (name : String) (mode : Ptr) : Option ModeHandle :=
  if mode.isNone then none else some { name, mode }

variable {V : Type}

/-- joint_command_interface.h 60, actuator_command_interface.h 58. -/
def CommandHandle.setCommand (h : CommandHandle) (v : V) (m : Mem V) : Access (Mem V) := write h.cmd v m

/-- joint_command_interface.h 61, actuator_command_interface.h 59. -/
def CommandHandle.getCommand (h : CommandHandle) (m : Mem V) : Access V := read h.cmd m

/-- posvel_command_interface.h 71. -/
def PosVelHandle.setCommandPosition (h : PosVelHandle) (v : V) (m : Mem V) : Access (Mem V) := write h.cmdPos v m

/-- posvel_command_interface.h 72. -/
def PosVelHandle.setCommandVelocity (h : PosVelHandle) (v : V) (m : Mem V) : Access (Mem V) := write h.cmdVel v m

/-- posvel_command_interface.h 74. -/
def PosVelHandle.getCommandPosition (h : PosVelHandle) (m : Mem V) : Access V := read h.cmdPos m

/-- posvel_command_interface.h 75. -/
def PosVelHandle.getCommandVelocity (h : PosVelHandle) (m : Mem V) : Access V := read h.cmdVel m

/-- posvel_command_interface.h 65-69. -/
def PosVelHandle.setCommand (h : PosVelHandle) (p v : V) (m : Mem V) : Access (Mem V) :=
  (h.setCommandPosition p m).andThen (h.setCommandVelocity v)

/-- posvelacc_command_interface.h 69. -/
def PosVelAccHandle.setCommandAcceleration (h : PosVelAccHandle) (v : V) (m : Mem V) : Access (Mem V) :=
  write h.cmdAcc v m

/-- posvelacc_command_interface.h 70. -/
def PosVelAccHandle.getCommandAcceleration (h : PosVelAccHandle) (m : Mem V) : Access V := read h.cmdAcc m

/-- posvelacc_command_interface.h 62-67. -/
def PosVelAccHandle.setCommand3 (h : PosVelAccHandle) (p v a : V) (m : Mem V) : Access (Mem V) :=
  ((h.setCommandPosition p m).andThen (h.setCommandVelocity v)).andThen (h.setCommandAcceleration a)

/-- position_velocity_torque_gains_command_interface.h 83. -/
def GainsHandle.setCommandEffort (h : GainsHandle) (v : V) (m : Mem V) : Access (Mem V) := write h.cmdEff v m

/-- position_velocity_torque_gains_command_interface.h 84. -/
def GainsHandle.getCommandEffort (h : GainsHandle) (m : Mem V) : Access V := read h.cmdEff m

/-- position_velocity_torque_gains_command_interface.h 86. -/
def GainsHandle.setCommandKp (h : GainsHandle) (v : V) (m : Mem V) : Access (Mem V) := write h.cmdKp v m

/-- position_velocity_torque_gains_command_interface.h 87. -/
def GainsHandle.getCommandKp (h : GainsHandle) (m : Mem V) : Access V := read h.cmdKp m

/-- position_velocity_torque_gains_command_interface.h 89. -/
def GainsHandle.setCommandKd (h : GainsHandle) (v : V) (m : Mem V) : Access (Mem V) := write h.cmdKd v m

/-- position_velocity_torque_gains_command_interface.h 90. -/
def GainsHandle.getCommandKd (h : GainsHandle) (m : Mem V) : Access V := read h.cmdKd m

/-- position_velocity_torque_gains_command_interface.h 74-81. -/
def GainsHandle.setCommand5 (h : GainsHandle) (p v e kp kd : V) (m : Mem V) : Access (Mem V) :=
  ((((h.setCommandPosition p m).andThen (h.setCommandVelocity v)).andThen (h.setCommandEffort e)).andThen
    (h.setCommandKp kp)).andThen (h.setCommandKd kd)

/-- joint_mode_interface.h 80. -/
def ModeHandle.setMode (h : ModeHandle) (v : V) (m : Mem V) : Access (Mem V) := write h.mode v m

/-- joint_mode_interface.h 81. -/
def ModeHandle.getMode (h : ModeHandle) (m : Mem V) : Access V := read h.mode m

/-! ### Programs -/

/-- A call of a setter through some handle. -/
inductive SetCall (V : Type)
  | command (h : CommandHandle) (v : V)
  | position (h : PosVelHandle) (v : V)
  | velocity (h : PosVelHandle) (v : V)
  | posVel (h : PosVelHandle) (p v : V)
  | acceleration (h : PosVelAccHandle) (v : V)
  | posVelAcc (h : PosVelAccHandle) (p v a : V)
  | effort (h : GainsHandle) (v : V)
  | kp (h : GainsHandle) (v : V)
  | kd (h : GainsHandle) (v : V)
  | gains (h : GainsHandle) (p v e g d : V)
  | mode (h : ModeHandle) (v : V)

/-- One call (dispatch). -/
def SetCall.run : SetCall V → Mem V → Access (Mem V)
  | .command h v, m => h.setCommand v m
  | .position h v, m => h.setCommandPosition v m
  | .velocity h v, m => h.setCommandVelocity v m
  | .posVel h p v, m => h.setCommand p v m
  | .acceleration h v, m => h.setCommandAcceleration v m
  | .posVelAcc h p v a, m => h.setCommand3 p v a m
  | .effort h v, m => h.setCommandEffort v m
  | .kp h v, m => h.setCommandKp v m
  | .kd h v, m => h.setCommandKd v m
  | .gains h p v e g d, m => h.setCommand5 p v e g d m
  | .mode h v, m => h.setMode v m

/-- Calls one after the other. -/
def runCalls : List (SetCall V) → Mem V → Access (Mem V)
  | [], m => .ok m
  | c :: cs, m => (c.run m).andThen (runCalls cs)

end Verif.Handles
