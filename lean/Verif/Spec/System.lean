import Verif.Model.System
import Verif.Spec.Manager
import Verif.Model.RobotHW

/-!
Vocabulary for the properties of the manager together with the hardware interfaces.
-/

namespace Verif

/-- The user code looks up handles only through interface objects in `S`. -/
def InitProg.Uses (S : ObjId → Prop) : InitProg → Prop
  | .done _ => True
  | .throws => True
  | .getHandle o _ k => S o ∧ ∀ r, (k r).Uses S

/-- The `init` functions use only the interfaces they are given: `hw` of a `Controller<T>`, and those
of the types `Ts` of a `MultiInterfaceController<Ts...>`. -/
def CtrlClass.Proper : CtrlClass → Prop
  | .single _ p1 p2 => ∀ hw, (p1 hw).Uses (· = hw) ∧ (p2 hw).Uses (· = hw)
  | .multi Ts _ p1 p2 => ∀ get, (p1 get).Uses (fun o => ∃ T ∈ Ts, get T = some o) ∧
      (p2 get).Uses fun o => ∃ T ∈ Ts, get T = some o

/-- ROS is up, and controllers that are loaded are proper. -/
def SysOp.Good : SysOp → Prop
  | .poll ok _ => ok.cond = true ∧ ok.body = true
  | .load _ r => r.cls.Proper
  | _ => True

/-- The types of the interfaces a class of controllers is given. -/
def CtrlClass.types : CtrlClass → List String
  | .single T _ _ => [T]
  | .multi Ts _ _ _ => Ts

/-- The interfaces of hardware_interface through which controllers command joints. -/
def jointCommandTypes : List String :=
  ["hardware_interface::JointCommandInterface",
   "hardware_interface::EffortJointInterface",
   "hardware_interface::VelocityJointInterface",
   "hardware_interface::PositionJointInterface",
   "hardware_interface::PosVelJointInterface",
   "hardware_interface::PosVelAccJointInterface",
   "hardware_interface::PositionVelocityTorqueGainsJointInterface"]

/-- Controllers that are loaded use only interfaces of these types. -/
def SysOp.UsesOnly (types : List String) : SysOp → Prop
  | .load _ r => ∀ T ∈ r.cls.types, T ∈ types
  | _ => True

/-- The system with hardware `robot` (whose interface objects are in `h0`) and no controllers. -/
def Sys.start (robot : IMan) (h0 : Heap) : Sys := { robot, heap := h0 }

/-- States reached from the start, with the default conflict check. -/
def Sys.Reached (env : TypeEnv) (robot : IMan) (h0 : Heap) (s : Sys) : Prop :=
  ∃ ops : List SysOp, (∀ op ∈ ops, op.Good) ∧ s = (Sys.start robot h0).run env checkForConflict ops

mutual

/-- The robot is as the C++ compiler and `registerInterface` leave it: the objects registered under a
type, and those combined from them, exist and have the claim policy of that type. -/
def TypedRobot (env : TypeEnv) (h : Heap) : IMan → Prop
  | .node i c _ _ s => (∀ T o, smapFind T i = some o → o < h.next ∧ (h.objs o).claiming = env.claiming T) ∧
      (∀ T o, smapFind T c = some o → o < h.next ∧ (h.objs o).claiming = env.claiming T) ∧ TypedRobots env h s

/-- Same, for a list. -/
def TypedRobots (env : TypeEnv) (h : Heap) : List IMan → Prop
  | [] => True
  | m :: ms => TypedRobot env h m ∧ TypedRobots env h ms

end

/-- The handle is registered, under its name, with an interface that claims resources. -/
def Heap.Exclusive (h : Heap) (hd : Handle) : Prop :=
  ∃ o, (h.objs o).claiming = true ∧ (hd.name, hd) ∈ (h.objs o).handles

/-- Handles are registered under their names. -/
def Heap.Named (h : Heap) : Prop := ∀ o k hd, (k, hd) ∈ (h.objs o).handles → hd.name = k

/-- `cells` maps a handle to the variables it can write. In the hardware, exclusive handles of
different names have different variables. -/
def Heap.CellsApart (cells : Nat → List Nat) (h : Heap) : Prop :=
  ∀ hd hd', h.Exclusive hd → h.Exclusive hd' → hd.name ≠ hd'.name →
    ∀ a ∈ cells hd.data, a ∉ cells hd'.data

/-- Controller `c` can write the variable `a` through a handle of an exclusive interface. -/
def Sys.CanWrite (s : Sys) (cells : Nat → List Nat) (c : CId) (a : Nat) : Prop :=
  ∃ g ∈ s.held c, g.exclusive = true ∧ a ∈ cells g.handle.data

/-- The callbacks of one controller. -/
def Event.isCbOf (c : CId) : Event → Bool
  | .cb c' _ => c' = c
  | _ => false

end Verif
