import Verif.Model.Manager
import Verif.Model.ControllerInit

/-!
The controller manager together with the hardware interfaces of the robot and the handles its
controllers hold: controller_manager/src/controller_manager.cpp 319-341 calls
`initRequest` (controller_interface/include/controller_interface/controller.h 96-131,
.../multi_interface_controller.h 245-282) on `robot_hw_`.

Simplifications. The robot registers its interfaces before the first controller is loaded
(the constructor, controller_manager.cpp 45-62, takes the `RobotHW`). Controllers obtain handles only in `init`.
-/

namespace Verif

/-- The class of a controller: `Controller<T>` (controller.h) or `MultiInterfaceController<Ts...>`
(multi_interface_controller.h), with the user's two `init` functions. -/
inductive CtrlClass
  | single (T : String) (p1 p2 : ObjId → InitProg)
  | multi (Ts : List String) (allowOptional : Bool) (p1 p2 : (String → Option ObjId) → InitProg)

/-- `initRequest` of a newly constructed controller object, controller_manager.cpp 322-324. -/
def CtrlClass.initRequest (env : TypeEnv) : CtrlClass → IMan → Heap → InitOut
  | .single T p1 p2, robot, h => controllerInit env T p1 p2 .constructed robot h []
  | .multi Ts o p1 p2, robot, h => multiInit env Ts o p1 p2 .constructed robot h []

/-- A handle in the possession of a controller, and whether it was obtained through an interface that
claims resources (`ClaimResources`, hardware_resource_manager.h 117-125). -/
structure Got where
  exclusive : Bool
  handle : Handle
deriving DecidableEq, Repr

/-- The handles the `init` functions have obtained (an observation: the code does not keep them, the
controller does). -/
def gotten (h : Heap) (log : List (ObjId × String)) : List Got :=
  log.filterMap fun (o, n) => ((h.objs o).rmGetHandle n).map fun hd => ⟨(h.objs o).claiming, hd⟩

/-- The manager, the robot's interface manager, the interface objects, and the handles of each
controller object. -/
structure Sys where
  mgr : Mgr := .init
  robot : IMan
  heap : Heap
  held : CId → List Got := fun _ => []

/-- What `loadController` finds outside, except for the outcome of `initRequest`. -/
structure LoadReq where
  nodeHandleOk : Bool
  type : Option String
  loaders : List Mgr.Loader
  /-- the class of the object the loader gives -/
  cls : CtrlClass

/-- The same with the outcome of `initRequest`. -/
def LoadReq.env (r : LoadReq) (init : Option (List InterfaceResources)) : Mgr.LoadEnv :=
  ⟨r.nodeHandleOk, r.type, r.loaders, init⟩

/-- `loadController` reaches line 324 of controller_manager.cpp: no return in 229-317. -/
def Mgr.reachesInit (m : Mgr) (name : String) (r : LoadReq) : Bool :=
  decide (m.svc = .idle) && !decide (m.used = some (!m.current)) &&
    !(m.cur.any fun s => s.info.name = name) && r.nodeHandleOk &&
    match r.type with
    | none => false
    | some t => (Mgr.instantiate t 0 r.loaders).isSome

/-- controller_manager.cpp 229-364: `loadController` with the initialisation of the controller. -/
def Sys.load (env : TypeEnv) (s : Sys) (name : String) (r : LoadReq) : Sys :=
  if s.mgr.reachesInit name r then
    let out := r.cls.initRequest env s.robot s.heap
    match out.ret with
    | some true =>
      { mgr := s.mgr.load name (r.env (some out.claimed))
        robot := out.robot
        heap := out.heap
        held := fun c => if c = s.mgr.nextId then gotten out.heap out.log else s.held c }
    -- 326-339: false or an exception
    | _ => { s with mgr := s.mgr.load name (r.env none), robot := out.robot, heap := out.heap }
  else { s with mgr := s.mgr.load name (r.env none) }

/-- Operations on the system. -/
inductive SysOp
  | update (time : Int) (reset : Bool) (hw : Mgr.HwReply)
  | load (name : String) (r : LoadReq)
  | unload (name : String)
  | switch (r : Mgr.SwitchReq) (now : Int) (prepOk : Bool)
  | reload (force : Bool) (now : Int) (prepOk : Bool)
  | poll (ok : Mgr.RosOk) (elapsed : Int)

/-- One operation (dispatch). -/
def Sys.step (env : TypeEnv) (conf : List ControllerInfo → Bool) (s : Sys) : SysOp → Sys
  | .update t r hw => { s with mgr := s.mgr.update t r hw }
  | .load n r => s.load env n r
  | .unload n => { s with mgr := s.mgr.unload n }
  | .switch r now p => { s with mgr := s.mgr.switch conf r now p }
  | .reload f now p => { s with mgr := s.mgr.reload conf f now p }
  | .poll ok e => { s with mgr := s.mgr.poll ok e }

/-- A history of operations. -/
def Sys.run (env : TypeEnv) (conf : List ControllerInfo → Bool) (s : Sys) (ops : List SysOp) : Sys :=
  ops.foldl (Sys.step env conf) s

/-- The effect of callbacks on memory: `act c k` is what callback `k` of controller `c` (controller_base.h 66-127, user code)
does. -/
def replay {V : Type} (act : CId → Callback → (Nat → V) → Nat → V) (es : List Event) (mem : Nat → V) : Nat → V :=
  es.foldl (fun mem e => match e with
    | .cb c k => act c k mem
    | _ => mem) mem

/-- The interfaces of hardware_interface and their claim policies: joint_command_interface.h 79-88,
posvel_command_interface.h 90, posvelacc_command_interface.h 85,
position_velocity_torque_gains_command_interface.h 107 (`ClaimResources`); joint_mode_interface.h 115,
actuator_command_interface.h 76-85, joint_state_interface.h 230, actuator_state_interface.h 231,
force_torque_sensor_interface.h 75, imu_sensor_interface.h 115 (`DontClaimResources`, the default of
hardware_resource_manager.h 78). The second component tells whether the handles have setters. -/
def stdInterfaces : List (String × Bool × Bool) :=
  [("hardware_interface::JointCommandInterface", true, true),
   ("hardware_interface::EffortJointInterface", true, true),
   ("hardware_interface::VelocityJointInterface", true, true),
   ("hardware_interface::PositionJointInterface", true, true),
   ("hardware_interface::PosVelJointInterface", true, true),
   ("hardware_interface::PosVelAccJointInterface", true, true),
   ("hardware_interface::PositionVelocityTorqueGainsJointInterface", true, true),
   ("hardware_interface::JointModeInterface", false, true),
   ("hardware_interface::ActuatorCommandInterface", false, true),
   ("hardware_interface::EffortActuatorInterface", false, true),
   ("hardware_interface::VelocityActuatorInterface", false, true),
   ("hardware_interface::PositionActuatorInterface", false, true),
   ("hardware_interface::JointStateInterface", false, false),
   ("hardware_interface::ActuatorStateInterface", false, false),
   ("hardware_interface::ForceTorqueSensorInterface", false, false),
   ("hardware_interface::ImuSensorInterface", false, false)]

/-- The types of hardware_interface; all are resource managers. -/
def stdEnv : TypeEnv where
  isRM T := stdInterfaces.any fun e => e.1 == T
  claiming T := stdInterfaces.any fun e => e.1 == T && e.2.1

end Verif
