import Verif.Model.DescribedRobot
import Verif.Model.System
import Verif.Model.RobotHW

/-!
A whole robot: transmissions and joint limits from the description (`Verif.Model.DescribedRobot`), controllers under
the controller manager (`Verif.Model.System`), and the loop of controller_manager_tests/src/dummy_app.cpp 46-54
(`read`, `update`, `write`).

Simplifications. Service calls are handled between two cycles (in `Verif.Model.BusyRobot` they are handled also in the
middle of cycles). Controllers write commands in their callbacks, not in `init`.
-/

namespace Verif.Whole

open Verif.Transmission (Mem Loader Cmd)
open Verif.Cycle (Halt Record)
open Verif.Described (Robot Setting)

variable {T K : Type}

/-- The type of the joint interface for a kind of commands, joint_command_interface.h 82-88. -/
def typeOf : Cmd → String
  | .position => "hardware_interface::PositionJointInterface"
  | .velocity => "hardware_interface::VelocityJointInterface"
  | .effort => "hardware_interface::EffortJointInterface"

/-- The handles controllers find in the joint interface for a kind of commands (effort_joint_interface_provider.cpp
57-72 and the other two): the name of the joint and the address of its command. -/
def commandHandles (L : Loader T) (c : Cmd) : List (String × Handle) :=
  let l := (L.ownCommand c).getD (L.jointCommand c)
  (smapKeys l).filterMap fun n => (smapFind n l).map fun e => (n, ⟨n, e.2⟩)

/-- The joint interfaces as objects; the handles of the `JointStateInterface` have no setters. -/
def interfaces (L : Loader T) : Heap where
  objs
    | 0 => ⟨commandHandles L .position, [], true⟩
    | 1 => ⟨commandHandles L .velocity, [], true⟩
    | 2 => ⟨commandHandles L .effort, [], true⟩
    | 3 => ⟨L.jointState.map fun e => (e.1, ⟨e.1, e.2.position⟩), [], false⟩
    | _ => {}
  next := 4

/-- joint_state_interface_provider.cpp 45-49, effort_joint_interface_provider.cpp 48-53 (and the other two): the loader
registers its joint interfaces with the robot. (An interface is registered when the first transmission asks for it;
here also if none does, then without joints. In the code the names are not yet there when `registerInterface` asks for
them, here they are; controllers get their handles from the interfaces.) -/
def registered (L : Loader T) : IMan :=
  let h := interfaces L
  IMan.registerInterface stdEnv (typeOf .effort) 2 h
    (IMan.registerInterface stdEnv (typeOf .velocity) 1 h
      (IMan.registerInterface stdEnv (typeOf .position) 0 h
        (IMan.registerInterface stdEnv "hardware_interface::JointStateInterface" 3 h .empty)))

/-- The manager with its controllers, the robot hardware, and the variables. -/
structure World (T K : Type) where
  sys : Sys
  robot : Robot T K
  mem : Mem T

/-- The start: the hardware is there, no controller is loaded (dummy_app.cpp 41-44). -/
def World.start (r : Robot T K) (m : Mem T) : World T K := ⟨{ robot := registered r.loader, heap := interfaces r.loader }, r, m⟩

/-- What comes from outside in a cycle: what the sensors report, the time and the flag given to `update`, the
answers of the hardware about a switch, what the callbacks of the controllers do in this cycle, whether the limits
interfaces are reset, and the period. -/
structure Input (T : Type) where
  sense : Mem T
  time : Int
  restart : Bool
  hw : Mgr.HwReply
  act : CId → Callback → Mem T → Mem T
  reset : Bool
  period : T

/-- What can happen: a service call (or a step of one, `Verif.Model.Manager`), or a cycle. -/
inductive Op (T : Type)
  | service (op : SysOp)
  | cycle (i : Input T)

/-- What a cycle does to the manager. -/
def Input.update (i : Input T) : SysOp := .update i.time i.restart i.hw

/-- What an operation does to the manager. -/
def Op.sys : Op T → SysOp
  | .service op => op
  | .cycle i => i.update

section

variable [Add T] [Sub T] [Mul T] [Div T] [OfNat T 2] [LinearOrder K] (S : Setting T K) (nd : Bool)

/-- A cycle, dummy_app.cpp 49-51. -/
def World.cycle (w : World T K) (i : Input T) : Except Halt (World T K × Record T) := do
  let m1 ← w.robot.read nd i.sense w.mem
  let sys := w.sys.step stdEnv checkForConflict i.update
  -- the callbacks made by this update
  let m2 := replay i.act (sys.mgr.trace.drop w.sys.mgr.trace.length) m1
  let r := if i.reset then { w.robot with limits := fun c => Limits.resetAll (w.robot.kind c) (w.robot.limits c) } else w.robot
  let (r, m3, m4) ← r.write S nd i.period m2
  return (⟨sys, r, m4⟩, ⟨m1, m2, m3, m4⟩)

/-- A completed cycle: the manager and the variables before it, the input, the manager after it, and the variables in
the course of it. -/
structure Seen (T : Type) where
  before : Sys
  start : Mem T
  input : Input T
  after : Sys
  record : Record T

/-- The robot in operation: the completed cycles, and why it halted, if it did. -/
def World.run : List (Op T) → World T K → List (Seen T) × Option Halt
  | [], _ => ([], none)
  | .service op :: ops, w => World.run ops { w with sys := w.sys.step stdEnv checkForConflict op }
  | .cycle i :: ops, w =>
    match w.cycle S nd i with
    | .error h => ([], some h)
    | .ok (w', rec) =>
      let (l, h) := World.run ops w'
      (⟨w.sys, w.mem, i, w'.sys, rec⟩ :: l, h)

end

end Verif.Whole
